import Verif.Spec.Alias
import Verif.Lemmas.Parent
import Verif.Lemmas.Log
import Verif.Lemmas.Network
import Verif.Lemmas.HeapChild
import Verif.Lemmas.Keep
import Verif.Lemmas.Details
import Verif.Props.Descr
import Verif.Props.PeerText
import Verif.Props.Fetch
import Verif.Props.Cli
/-!
# Lemmas: interface descriptions
-/

namespace Ladvd

open Spec

/-! ## The requests of an event -/

/-- The requests `R` made for marked interfaces: each is about an interface whose description differs, and no marked interface among `is` is
left out. -/
structure Asked (o : Opts) (q : List Entry) (l : List Netif) (marked : Nat → Prop) (R : List (Nat × Bytes)) : Prop where
  off : o.has OPT_IFDESCR = false → R = []
  only : ∀ r ∈ R, ∃ n, netifByIndex l r.1 = some n ∧ r.2 = descrText o r.1 q ∧ r.2 ≠ n.description
  all : o.has OPT_IFDESCR = true → ∀ i n, netifByIndex l i = some n → marked i → descrText o i q ≠ n.description → (i, descrText o i q) ∈ R

theorem netifDescr_eq {o : Opts} {l : List Netif} {i : Nat} {n : Netif} (h : netifByIndex l i = some n) (q : List Entry) :
    netifDescr o n q = if descrText o i q = n.description then none else some (i, descrText o i q) := by
  unfold netifDescr
  rw [byIndex_index h]

theorem updateNetifs_out (o : Opts) (is : List Nat) : ∀ (st st' : Child), updateNetifs o is st = .ok st' →
    ∃ R, st'.out = st.out ++ R ∧
      Asked o st.queue st.netifs (fun i => i ∈ is ∧ ∃ n, netifByIndex st.netifs i = some n ∧ n.update ≠ 0) R := by
  induction is with
  | nil =>
    intro st st' h
    cases h
    exact ⟨[], by simp, ⟨fun _ => rfl, (fun _ h => nomatch h), fun _ _ _ _ h => nomatch h.1⟩⟩
  | cons i is ih =>
    intro st st' h
    rw [updateNetifs_cons] at h
    cases e : netifByIndex st.netifs i with
    | none =>
      rw [e] at h
      obtain ⟨R, h1, h2⟩ := ih _ _ h
      refine ⟨R, h1, h2.off, h2.only, fun hd j n hn ⟨hj, hm⟩ hne => h2.all hd j n hn ⟨?_, hm⟩ hne⟩
      rcases List.mem_cons.mp hj with rfl | hj
      · rw [e] at hn; cases hn
      · exact hj
    | some subif =>
      rw [e] at h
      dsimp only at h
      by_cases hu : subif.update = 0
      · rw [if_pos hu] at h
        obtain ⟨R, h1, h2⟩ := ih _ _ h
        refine ⟨R, h1, h2.off, h2.only, fun hd j n hn ⟨hj, hm⟩ hne => h2.all hd j n hn ⟨?_, hm⟩ hne⟩
        rcases List.mem_cons.mp hj with rfl | hj
        · obtain ⟨n', hn', hm⟩ := hm
          rw [e] at hn'; cases hn'
          exact absurd hu hm
        · exact hj
      · rw [if_neg hu] at h
        -- the state after the protocols were updated
        have key : ∀ st1 : Child, st1.queue = st.queue → st1.out = st.out →
            (∃ f : Netif → Netif, (∀ n, (f n).index = n.index ∧ (f n).description = n.description ∧ (f n).update = n.update) ∧
              ∀ j, netifByIndex st1.netifs j = (netifByIndex st.netifs j).map f) →
            ((Res.ok (if o.has OPT_IFDESCR then
                { st1 with out := st1.out ++ (netifDescr o subif st1.queue).toList } else st1)).bind (fun c =>
                updateNetifs o is { c with netifs := setNetif c.netifs i (fun n => { n with update := 0 }) })) = .ok st' →
            ∃ R, st'.out = st.out ++ R ∧ Asked o st.queue st.netifs (fun j => j ∈ i :: is ∧ ∃ n, netifByIndex st.netifs j = some n ∧ n.update ≠ 0) R := by
          intro st1 hq hout ⟨f, hf, hl⟩ h
          simp only [Res.bind_ok] at h
          obtain ⟨R, h1, h2⟩ := ih _ _ h
          have hnet : (if o.has OPT_IFDESCR = true then
              { st1 with out := st1.out ++ (netifDescr o subif st1.queue).toList } else st1).netifs = st1.netifs := by split <;> rfl
          have hque : (if o.has OPT_IFDESCR = true then
              { st1 with out := st1.out ++ (netifDescr o subif st1.queue).toList } else st1).queue = st.queue := by split <;> exact hq
          have hset : ∀ j, netifByIndex (setNetif st1.netifs i (fun n => { n with update := 0 })) j =
              (netifByIndex st.netifs j).map (fun n => if n.index = i then { f n with update := 0 } else f n) := by
            intro j
            rw [byIndex_set _ i (fun n => { n with update := 0 }) (fun _ => rfl) j, hl j, Option.map_map]
            congr 1
            funext n
            simp only [Function.comp_apply, (hf n).1]
          dsimp only at h1 h2
          rw [hnet, hque] at h2
          have honly : ∀ r ∈ R, ∃ n, netifByIndex st.netifs r.1 = some n ∧ r.2 = descrText o r.1 st.queue ∧ r.2 ≠ n.description := by
            intro r hr
            obtain ⟨n, hn, hr1, hr2⟩ := h2.only r hr
            rw [hset] at hn
            obtain ⟨n0, hn0, rfl⟩ := Option.map_eq_some_iff.mp hn
            refine ⟨n0, hn0, hr1, ?_⟩
            have : (if n0.index = i then { f n0 with update := 0 } else f n0).description = n0.description := by
              split
              · exact (hf n0).2.1
              · exact (hf n0).2.1
            rw [this] at hr2
            exact hr2
          by_cases hd : o.has OPT_IFDESCR = true
          · rw [if_pos hd] at h1
            refine ⟨(netifDescr o subif st.queue).toList ++ R, by rw [h1, hout, hq, List.append_assoc], ?_, ?_, ?_⟩
            · intro hc; rw [hd] at hc; cases hc
            · intro r hr
              rcases List.mem_append.mp hr with hr | hr
              · rw [netifDescr_eq e] at hr
                split at hr
                · cases hr
                · next hne =>
                  rw [Option.toList_some, List.mem_singleton] at hr
                  subst hr
                  exact ⟨subif, e, rfl, hne⟩
              · exact honly r hr
            · intro _ j n hn ⟨hj, hm⟩ hne
              apply List.mem_append.mpr
              by_cases hji : j = i
              · subst hji
                left
                rw [e] at hn
                cases hn
                rw [netifDescr_eq e, if_neg hne]
                simp
              · right
                have hj : j ∈ is := by
                  rcases List.mem_cons.mp hj with h | h
                  · exact absurd h hji
                  · exact h
                have hn' : netifByIndex (setNetif st1.netifs i (fun n => { n with update := 0 })) j = some (f n) := by
                  rw [hset, hn, Option.map_some, if_neg (by rw [byIndex_index hn]; exact hji)]
                refine h2.all hd j (f n) hn' ⟨hj, f n, hn', ?_⟩ (by rw [(hf n).2.1]; exact hne)
                obtain ⟨n', hn'', hu'⟩ := hm
                rw [hn] at hn''
                cases hn''
                rw [(hf n).2.2]
                exact hu'
          · rw [if_neg hd] at h1
            refine ⟨R, by rw [h1, hout], h2.off, honly, fun hc => absurd hc hd⟩
        by_cases ha : o.has OPT_AUTO = true
        · rw [if_pos ha] at h
          cases hp : netifProtos st.netifs (parentOf st.netifs subif) st.queue with
          | ok v =>
            rw [hp] at h
            refine key { st with netifs := setNetif st.netifs (parentOf st.netifs subif).index (fun n => { n with protos := v }) } rfl rfl ?_ h
            refine ⟨fun n => if n.index = (parentOf st.netifs subif).index then { n with protos := v } else n, ?_, ?_⟩
            · intro n
              dsimp only
              split <;> exact ⟨rfl, rfl, rfl⟩
            · intro j
              exact byIndex_set _ _ (fun n => { n with protos := v }) (fun _ => rfl) j
          | fail => rw [hp] at h; cases h
          | oob => rw [hp] at h; cases h
          | abort => rw [hp] at h; cases h
          | stuck => rw [hp] at h; cases h
        · rw [if_neg ha] at h
          exact key st rfl rfl ⟨id, fun _ => ⟨rfl, rfl, rfl⟩, fun j => by simp⟩ h

theorem byIndex_bare {l l' : List Netif} (h : l'.map bare = l.map bare) (i : Nat) :
    (netifByIndex l' i).map (·.description) = (netifByIndex l i).map (·.description) := by
  have e : ∀ l : List Netif, (netifByIndex l i).map (·.description) = (netifByIndex (l.map bare) i).map (·.description) := by
    intro l
    rw [byIndex_map l bare (fun _ => rfl) i, Option.map_map]
    rfl
  rw [e l', e l, h]

theorem Asked.congr {o : Opts} {q : List Entry} {l l' : List Netif} {m m' : Nat → Prop} {R : List (Nat × Bytes)} (h : Asked o q l m R)
    (hl : ∀ i, (netifByIndex l' i).map (·.description) = (netifByIndex l i).map (·.description))
    (hm : ∀ i, (∃ n, netifByIndex l i = some n) → m' i → m i) : Asked o q l' m' R := by
  refine ⟨h.off, ?_, ?_⟩
  · intro r hr
    obtain ⟨n, hn, h1, h2⟩ := h.only r hr
    have := hl r.1
    rw [hn] at this
    obtain ⟨n', hn', hd⟩ := Option.map_eq_some_iff.mp this
    exact ⟨n', hn', h1, by rw [hd]; exact h2⟩
  · intro ho i n hn hmi hne
    have := (hl i).symm
    rw [hn] at this
    obtain ⟨n', hn', hd⟩ := Option.map_eq_some_iff.mp this
    exact h.all ho i n' hn' (hm i ⟨n', hn'⟩ hmi) (by rw [hd]; exact hne)

theorem childExpire_out {o : Opts} {now : Int} {st st' : Child} (h : childExpire o now st = .ok st') :
    ∃ R, st'.out = st.out ++ R ∧ Asked o st'.queue st'.netifs (fun i => ∃ e ∈ st.queue, e.index = i ∧ keeps now e = false) R := by
  have hb := childExpire_bare h
  have hq := (childExpire_frame h).1
  unfold childExpire at h
  dsimp only at h
  obtain ⟨R, h1, h2⟩ := updateNetifs_out o _ _ _ h
  refine ⟨R, h1, ?_⟩
  dsimp only at h2
  rw [hq]
  have hbm := byIndex_map st.netifs (fun n => if (st.queue.filter (fun e => !keeps now e)).any (fun e => e.index == n.index) then { n with update := 1 } else n)
    (by intro n; split <;> rfl)
  refine h2.congr ?_ ?_
  · intro i
    rw [byIndex_bare hb i, hbm i, Option.map_map]
    congr 1
    funext n
    simp only [Function.comp_apply]
    split <;> rfl
  · intro i ⟨n, hn⟩ ⟨e, he, hei, hk⟩
    refine ⟨?_, n, hn, ?_⟩
    · have := byIndex_index hn
      rw [← this]
      exact List.mem_map_of_mem (byIndex_mem hn)
    · rw [hbm i] at hn
      obtain ⟨n0, hn0, rfl⟩ := Option.map_eq_some_iff.mp hn
      rw [if_pos]
      · exact Nat.one_ne_zero
      · rw [List.any_eq_true]
        refine ⟨e, List.mem_filter.mpr ⟨he, by rw [hk]; rfl⟩, ?_⟩
        rw [beq_iff_eq, hei, byIndex_index hn0]

/-- The text depends on the entries of the interface only. -/
theorem descrText_congr {o : Opts} {i : Nat} {q q' : List Entry} (h : Props.onInterface q' i = Props.onInterface q i) :
    descrText o i q' = descrText o i q := by
  have e : q'.foldl (descrStep (o.has OPT_USEDESCR) i) {} = q.foldl (descrStep (o.has OPT_USEDESCR) i) {} := by
    rw [Props.descr_fold, Props.descr_fold]
    unfold Props.hostOf Props.portOf
    rw [h]
  unfold descrText
  rw [e]

theorem onInterface_put (q : List Entry) (e : Entry) {i : Nat} (h : i ≠ e.index) : Props.onInterface (queuePut q e) i = Props.onInterface q i := by
  have hne : (e.index == i) = false := by rw [beq_eq_false_iff_ne]; exact fun hc => h hc.symm
  unfold Props.onInterface
  rcases queuePut_cases q e with ⟨l1, o, l2, h1, h2, -, h4⟩ | ⟨-, l1, l2, h1, h2, -⟩
  · have ho : (o.index == i) = false := by
      have : o.index = e.index := congrArg Prod.fst h2
      rw [this]; exact hne
    rw [h4, h1, List.filter_append, List.filter_append, List.filter_cons, List.filter_cons, if_neg (by rw [hne]; nofun), if_neg (by rw [ho]; nofun)]
  · rw [h2, h1, List.filter_append, List.filter_append, List.filter_cons, if_neg (by rw [hne]; nofun)]

theorem onInterface_keep (q : List Entry) (now : Int) {i : Nat} (h : ∀ e ∈ q, e.index = i → keeps now e = true) :
    Props.onInterface (q.filter (keeps now)) i = Props.onInterface q i := by
  unfold Props.onInterface
  rw [List.filter_filter]
  apply List.filter_congr
  intro e he
  by_cases hi : e.index = i
  · rw [h e he hi, Bool.and_true]
  · rw [beq_eq_false_iff_ne.mpr hi, Bool.false_and]

/-- The text of the interface changes. -/
def TextChanges (o : Opts) (q q' : List Entry) (i : Nat) : Prop := descrText o i q' ≠ descrText o i q

theorem expire_text {o : Opts} {now : Int} {q : List Entry} {i : Nat} (h : TextChanges o q (q.filter (keeps now)) i) :
    ∃ e ∈ q, e.index = i ∧ keeps now e = false := by
  apply Classical.byContradiction
  intro hc
  apply h
  refine descrText_congr (onInterface_keep q now ?_)
  intro e he hi
  cases hk : keeps now e with
  | true => rfl
  | false => exact absurd ⟨e, he, hi, hk⟩ hc

theorem queueStore_out {o : Opts} {t : Int} {subif : Netif} {e : Entry} {st st' : Child} (hs : netifByIndex st.netifs e.index = some subif)
    (hc : e.ttl = 0 → e.received < t ∧ e.lock = 0) (h : queueStore o t subif e st = .ok st') :
    ∃ R, st'.out = st.out ++ R ∧ Asked o st'.queue st'.netifs (fun i => i = e.index ∨ TextChanges o st.queue st'.queue i) R := by
  have hb := queueStore_bare h
  have hq := (queueStore_frame h).1
  unfold queueStore at h
  dsimp only at h
  by_cases ht : e.ttl = 0
  · rw [if_pos ht] at h hq
    obtain ⟨R, h1, h2⟩ := childExpire_out h
    refine ⟨R, h1, h2.congr (fun _ => rfl) ?_⟩
    intro i _ hi
    dsimp only
    have hput : ∃ x ∈ queuePut st.queue e, x.index = e.index ∧ keeps t x = false := by
      obtain ⟨c1, c2⟩ := hc ht
      have hk : ∀ j, keeps t { e with id := j } = false := by
        intro j
        unfold keeps
        dsimp only
        rw [ht, c2]
        simp only [ne_eq, not_true_eq_false, decide_false, Bool.or_false, decide_eq_false_iff_not]
        omega
      rcases queuePut_cases st.queue e with ⟨l1, o, l2, -, -, -, h4⟩ | ⟨-, l1, l2, -, h2, -⟩
      · exact ⟨{ e with id := o.id }, by rw [h4]; simp, rfl, hk _⟩
      · exact ⟨e, by rw [h2]; simp, rfl, hk e.id⟩
    by_cases hie : i = e.index
    · rw [hie]; exact hput
    · have hi : TextChanges o st.queue st'.queue i := by
        rcases hi with hi | hi
        · exact absurd hi hie
        · exact hi
      rw [hq] at hi
      apply expire_text (o := o)
      unfold TextChanges at hi ⊢
      rw [descrText_congr (onInterface_put st.queue e hie)]
      exact hi
  · rw [if_neg ht] at h hq
    have hout : st'.out = st.out ++ (if o.has OPT_IFDESCR then (netifDescr o subif (queuePut st.queue e)).toList else []) := by
      by_cases hd : o.has OPT_IFDESCR = true
      · rw [if_pos hd] at h ⊢
        split at h
        · injection h with h; rw [← h]
        · split at h
          · injection h with h; rw [← h]
          · injection h with h; rw [← h]
      · rw [if_neg hd] at h ⊢
        rw [List.append_nil]
        split at h
        · injection h with h; rw [← h]
        · split at h
          · injection h with h; rw [← h]
          · injection h with h; rw [← h]
    refine ⟨_, hout, ?_⟩
    rw [hq, netifDescr_eq hs]
    have hbi := byIndex_bare hb
    refine Asked.congr (l := st.netifs) (m := fun i => i = e.index) ⟨?_, ?_, ?_⟩ hbi ?_
    · intro hd; rw [if_neg (by rw [hd]; nofun)]
    · intro r hr
      split at hr
      · split at hr
        · cases hr
        · next hne =>
          rw [Option.toList_some, List.mem_singleton] at hr
          subst hr
          exact ⟨subif, hs, rfl, hne⟩
      · cases hr
    · intro hd i n hn hi hne
      subst hi
      rw [hs] at hn
      cases hn
      rw [if_pos hd, if_neg hne]
      simp
    · intro i _ hi
      rcases hi with hi | hi
      · exact hi
      · apply Classical.byContradiction
        intro hne
        exact hi (descrText_congr (onInterface_put st.queue e hne))

theorem cliWrite_still {sid : Nat} {ws : Option (List WriteRes)} {st st' : Child} (h : cliWrite sid ws st = .ok st') :
    st'.queue.map (fun e => { e with lock := 0 }) = st.queue.map (fun e => { e with lock := 0 }) ∧ st'.out = st.out := by
  have hlock : ∀ q id f, (setLock q id f).map (fun e => { e with lock := 0 }) = q.map (fun e => { e with lock := 0 }) :=
    fun q id f => setLock_map q id f _ (fun _ _ => rfl)
  rcases cliWrite_frame h with ⟨rfl, -⟩ | ⟨sess, hs, -, ⟨-, rfl⟩ | ⟨wl, queue, suffix, -, hst, h⟩⟩
  · exact ⟨rfl, rfl⟩
  · exact ⟨rfl, rfl⟩
  · have hq : queue.map (fun e => { e with lock := 0 }) = st.queue.map (fun e => { e with lock := 0 }) := by
      rcases cliStart_spec hst with ⟨_, rfl, _⟩ | ⟨id, pre, _, rfl, _⟩
      · rfl
      · exact hlock _ _ _
    rcases h with ⟨c, -, rfl⟩ | ⟨-, rfl⟩
    · exact ⟨(hlock _ _ _).trans hq, rfl⟩
    · exact ⟨hq, rfl⟩

theorem descrText_lock (o : Opts) (i : Nat) (q : List Entry) : descrText o i (q.map (fun e => { e with lock := 0 })) = descrText o i q := by
  unfold descrText
  rw [List.foldl_map]
  rfl

theorem step_out {c : Conf} {d d' : Daemon} {e : Event} (hc : Clocked e) (h : daemonStep c d e = .ok d') :
    ∃ R, d'.child.out = d.child.out ++ R ∧ Asked c.opts d'.child.queue d'.child.netifs (fun i => Hears d d' e i ∨
      TextChanges c.opts d.child.queue d'.child.queue i) R := by
  have hnone : ∀ {d d' : Daemon} {e : Event}, d'.child.out = d.child.out → d'.child.queue = d.child.queue → (∀ now r, e ≠ .recv now r) →
      ∃ R, d'.child.out = d.child.out ++ R ∧ Asked c.opts d'.child.queue d'.child.netifs (fun i => Hears d d' e i ∨
      TextChanges c.opts d.child.queue d'.child.queue i) R := by
    intro d d' e h1 h2 h3
    refine ⟨[], by rw [h1, List.append_nil], fun _ => rfl, (fun _ h => nomatch h), ?_⟩
    intro _ i n _ hi
    rcases hi with ⟨now, r, he, -⟩ | hi
    · exact absurd he (h3 now r)
    · rw [h2] at hi
      exact absurd rfl hi
  cases e with
  | timer k m now =>
    rw [daemonStep] at h
    cases hround : sendRound c k m none d with
    | ok d1 =>
      rw [hround] at h
      simp only [Res.bind_ok] at h
      have hch := sendRound_child hround
      have ho : d1.child.out = d.child.out := by rw [hch]
      have hq : d1.child.queue = d.child.queue := by rw [hch]
      split at h
      · obtain ⟨ch, hc, rfl⟩ := lift_ok h
        obtain ⟨R, h1, h2⟩ := childExpire_out hc
        refine ⟨R, by rw [← ho]; exact h1, h2.congr (fun _ => rfl) ?_⟩
        intro i _ hi
        rcases hi with ⟨now, r, he, -⟩ | hi
        · cases he
        · dsimp only at hi
          rw [(childExpire_frame hc).1, ← hq] at hi
          exact expire_text hi
      · injection h with h
        subst h
        exact hnone ho hq (fun _ _ h => nomatch h)
    | fail => rw [hround] at h; cases h
    | oob => rw [hround] at h; cases h
    | abort => rw [hround] at h; cases h
    | stuck => rw [hround] at h; cases h
  | link k m a b i =>
    rw [daemonStep] at h
    split at h
    · have hch := sendRound_child h
      exact hnone (by rw [hch]) (by rw [hch]) (fun _ _ h => nomatch h)
    · injection h with h
      subst h
      exact hnone rfl rfl (fun _ _ h => nomatch h)
  | recv now r =>
    obtain ⟨ch, hq, rfl⟩ := lift_ok h
    rcases queueLog_cases hq with ⟨rfl, -, -⟩ | ⟨t, subif, m, rfl, ht, -, hst⟩
    · refine ⟨[], by simp, fun _ => rfl, (fun _ h => nomatch h), ?_⟩
      intro _ i n _ hi
      rcases hi with ⟨_, _, -, -, hne⟩ | hi
      · exact absurd rfl hne
      · exact absurd rfl hi
    · obtain ⟨R, h1, h2⟩ := queueStore_out (e := entryOf d.child t r subif m) ht.known (by
        intro h0
        have h0 : m.ttl = 0 := h0
        refine ⟨?_, rfl⟩
        show (if m.ttl ≠ 0 then t else r.received) < t
        rw [if_neg (by rw [h0]; exact fun h => h rfl)]
        exact hc) hst
      refine ⟨R, h1, h2.congr (fun _ => rfl) ?_⟩
      intro i _ hi
      rcases hi with ⟨_, _, he, hi, -⟩ | hi
      · injection he with he1 he2
        subst he2
        exact Or.inl hi.symm
      · exact Or.inr hi
  | accept =>
    obtain ⟨ch, hc, rfl⟩ := lift_ok h
    injection hc with hc
    subst hc
    exact hnone rfl rfl (fun _ _ h => nomatch h)
  | write sid ws =>
    obtain ⟨ch, hc, rfl⟩ := lift_ok h
    obtain ⟨h1, h2⟩ := cliWrite_still hc
    refine ⟨[], by rw [List.append_nil]; exact h2, fun _ => rfl, (fun _ h => nomatch h), ?_⟩
    intro _ i n _ hi
    rcases hi with ⟨_, _, he, -⟩ | hi
    · cases he
    · refine absurd ?_ hi
      dsimp only
      rw [← descrText_lock _ _ ch.queue, h1, descrText_lock]

/-! ## Serving the requests -/

theorem mreqBytes_asks {op : UInt8} {i : Nat} {buf : Bytes} (hi : i < 2 ^ 32) (hb : buf.length ≤ 512) : Asks (mreqBytes op i buf) op.toNat i buf := by
  refine ⟨[0, 0, 0], List.replicate 16 0, rfl, rfl, op.toNat_lt, hi, hb, ?_⟩
  unfold mreqBytes reqBytes
  rw [UInt8.ofNat_toNat]

theorem mreqBytes_take {op : UInt8} {i : Nat} {buf : Bytes} (hi : i < 2 ^ 32) (hb : buf.length ≤ 512) : (mreqBytes op i buf).take 544 = mreqBytes op i buf := by
  obtain ⟨_, _, -, -, hl, -⟩ := reqOf_asks (mreqBytes_asks (op := op) hi hb) []
  exact List.take_of_length_le (by omega)

theorem aliasEnv_ok {ifName : Nat → Option Bytes} (h : ∀ i n, ifName i = some n → n.length ≤ 15) (a : Aliases) : PEnvOk (aliasEnv ifName a) :=
  ⟨h, fun _ _ _ h => nomatch h⟩

/-- The alias as the daemon learns it. -/
theorem fetchAlias_eq (c : Conf) {ifName : Nat → Option Bytes} (h : ∀ i n, ifName i = some n → n.length ≤ 15) (a : Aliases) (s : Parent)
    {i : Nat} (hi : i < 2 ^ 32) {left : Bytes} (hl : left.length ≤ 512) :
    fetchAlias c (aliasEnv ifName a) s i left =
      .ok (let out := (((ifName i).bind a).map (fun t => firstLine 63 (aliasFile t))).getD []
        if out = [] then none else some (out ++ List.replicate (512 - out.length) 0)) := by
  have hask : Asks ((aliasReq i left).take 544) 3 i left := by
    unfold aliasReq
    rw [mreqBytes_take hi hl]
    exact mreqBytes_asks hi hl
  have key : ∀ {s' : Parent} {b out : Bytes}, parentReq c (aliasEnv ifName a) s (aliasReq i left) = .ok (s', b) → Asks b 3 i out →
      fetchAlias c (aliasEnv ifName a) s i left = .ok (if out = [] then none else some (out ++ List.replicate (512 - out.length) 0)) := by
    intro s' b out hp hb
    obtain ⟨r, e, -, -, r3, r4⟩ := mreqReply_asks hb
    unfold fetchAlias
    rw [hp]
    simp only [Res.bind_ok]
    rw [e]
    simp only [Res.bind_ok]
    rw [r3, r4]
    cases out with
    | nil => rfl
    | cons x out => rfl
  rcases parentReq_cases (c := c) (aliasEnv_ok h a) s (aliasReq i left) with ⟨hno, -⟩ | ⟨op, j, payload, hask', hrest⟩
  · exact absurd hask (hno _ _ _)
  · obtain ⟨rfl, rfl, rfl⟩ := asks_inj hask hask'
    rcases hrest with ⟨hn, b', h1, hb⟩ | ⟨name, hn, ⟨hns, -⟩ | ⟨hsv, ⟨h0, -⟩ | ⟨s1, b1, out, new, h1, hb, -, -, hans, -⟩⟩⟩
    · rw [key h1 hb]
      have hn : ifName i = none := hn
      rw [hn]
      rfl
    · exact absurd ⟨by omega, by omega, by omega, by omega⟩ hns
    · omega
    · rw [key h1 hb]
      have hn : ifName i = some name := hn
      obtain ⟨-, -, h3, -⟩ := hans
      have h3 := h3 rfl
      rw [hn]
      dsimp only [Option.bind_some]
      have : out = ((a name).map (fun t => firstLine 63 (aliasFile t))).getD [] := by
        rw [h3]
        show (((a name).map aliasFile).map (firstLine 63)).getD [] = _
        rw [Option.map_map]
        rfl
      rw [this]

/-- What becomes of a request. -/
theorem serveDescr_eq (c : Conf) {ifName : Nat → Option Bytes} (h : ∀ i n, ifName i = some n → n.length ≤ 15) (a : Aliases) (s : Parent)
    {i : Nat} (hi : i < 2 ^ 32) {text : Bytes} (hl : text.length ≤ 63) (h0 : (0 : UInt8) ∉ text) :
    serveDescr c (aliasEnv ifName a) s (i, text) =
      .ok (match ifName i with
        | none => s
        | some n => if (a n).isSome then s.log (.aliasWrite n text) else s) := by
  have hl' : (text ++ [(0 : UInt8)]).length ≤ 512 := by rw [List.length_append, List.length_singleton]; omega
  have hask : Asks (descrReq (i, text)) 2 i (text ++ [0]) := mreqBytes_asks hi hl'
  have htake : (descrReq (i, text)).take 544 = descrReq (i, text) := mreqBytes_take hi hl'
  obtain ⟨pad, nm, hp, hnm, hlen, hr⟩ := reqOf_asks hask (List.replicate (544 - (descrReq (i, text)).length) 0)
  have hbuf : (text ++ [0] ++ List.replicate (544 - (descrReq (i, text)).length) 0 : Bytes).length = 512 := by
    rw [List.length_append, List.length_replicate, hlen]; omega
  have hcond : ¬ ((descrReq (i, text)).length < REQ_MIN ∨ (descrReq (i, text)).length ≠ reqLen (text ++ [(0 : UInt8)]).length) := by
    rw [reqLen_small hl']
    unfold REQ_MIN
    omega
  suffices hmain : ∃ b, parentReq c (aliasEnv ifName a) s (descrReq (i, text)) = .ok ((match ifName i with
        | none => s
        | some n => if (a n).isSome then s.log (.aliasWrite n text) else s), b) ∧ ∃ out, Asks b 2 i out by
    obtain ⟨b, e, out, hb⟩ := hmain
    obtain ⟨r, e2, -⟩ := mreqReply_asks hb
    unfold serveDescr
    rw [e]
    simp only [Res.bind_ok]
    rw [e2]
    rfl
  unfold parentReq
  rw [recvInto_eq]
  unfold REQ_MAX
  rw [htake]
  dsimp only
  rw [hr]
  dsimp only
  rw [if_neg hcond]
  rw [show (aliasEnv ifName a).ifName = ifName from rfl]
  cases hn : ifName i with
  | none =>
    dsimp only
    obtain ⟨b, e, hb⟩ := reply_asks (op := UInt8.ofNat 2) (pad := pad) (name := nm) (i := i) (len := 0)
      (buf := text ++ [0] ++ List.replicate (544 - (descrReq (i, text)).length) 0) hp hnm hi hbuf (by omega)
    refine ⟨b, ?_, _, hb⟩
    simp only [Res.bind_eq, Res.pure_eq]
    rw [e]
    rfl
  | some name =>
    dsimp only
    have hname := h i name hn
    obtain ⟨nm', en, -, ln⟩ := wr_some (m := nm) (p := 0) (v := name ++ [0]) (by rw [List.length_append, List.length_singleton]; omega)
    simp only [Res.bind_eq, Res.pure_eq]
    rw [en]
    simp only [Res.bind_ok]
    rw [if_neg (by
      unfold parentCheck
      dsimp only
      rw [Bool.not_eq_true', Bool.eq_false_iff]
      simp only [ne_eq, Classical.not_not]
      simp only [Bool.and_eq_true, decide_eq_true_eq]
      refine ⟨⟨?_, by decide⟩, ?_⟩
      · unfold ETHER_MAX_LEN; omega
      · rw [if_neg (by decide), if_neg (by decide), if_pos (by decide), decide_eq_true_eq, List.length_append, List.length_singleton]
        omega)]
    obtain ⟨buf', eb, vb, lb⟩ := wr_some (m := text ++ [0] ++ List.replicate (544 - (descrReq (i, text)).length) 0) (p := 64) (v := [(0 : UInt8)])
      (by rw [hbuf]; decide)
    have hcs : cstr buf' = text := by
      rw [vb, List.append_assoc text, List.take_append, List.take_of_length_le (by omega : text.length ≤ 64)]
      obtain ⟨k, hk⟩ : ∃ k, 64 - text.length = k + 1 := ⟨63 - text.length, by omega⟩
      rw [hk, List.singleton_append, List.take_succ_cons, List.append_assoc, List.append_assoc, List.cons_append]
      exact cstr_line (fun b hb hc => h0 (hc ▸ hb))
    unfold parentOp
    dsimp only
    rw [if_neg (by decide), if_neg (by decide), if_pos (by decide)]
    unfold parentDescr
    simp only [Res.bind_eq, Res.pure_eq]
    rw [eb]
    simp only [Res.bind_ok]
    rw [show (aliasEnv ifName a).alias name = (a name).map aliasFile from rfl]
    cases ha : a name with
    | none =>
      dsimp only [Option.map_none, Res.bind_ok, Option.isSome_none]
      obtain ⟨b, e, hb⟩ := reply_asks (op := UInt8.ofNat 2) (pad := pad) (name := nm') (i := i) (len := 0) (buf := buf')
        hp (by omega) hi (by omega) (by omega)
      refine ⟨b, ?_, _, hb⟩
      rw [if_neg (by nofun), if_neg (by nofun)]
      rw [e]
      rfl
    | some t =>
      dsimp only [Option.map_some, Res.bind_ok, Option.isSome_some]
      simp only [if_true, Res.bind_ok]
      have hw : writeLine (aliasEnv ifName a) name (cstr buf') ≤ 512 := by
        unfold writeLine
        rw [hcs]
        omega
      obtain ⟨b, e, hb⟩ := reply_asks (op := UInt8.ofNat 2) (pad := pad) (name := nm') (i := i) (len := writeLine (aliasEnv ifName a) name (cstr buf'))
        (buf := buf') hp (by omega) hi (by omega) hw
      refine ⟨b, ?_, _, hb⟩
      rw [e, hcs]
      rfl

theorem aliasStored_twice (old t : Bytes) : aliasStored (aliasStored old t) t = aliasStored old t := by
  unfold aliasStored
  split <;> rfl

/-- The requests about one interface. -/
theorem servedAll_eq (c : Conf) {ifName : Nat → Option Bytes} (h : NamesOk ifName) (R : List (Nat × Bytes)) : ∀ (a : Aliases),
    (∀ r ∈ R, r.1 < 2 ^ 32 ∧ r.2.length ≤ 63 ∧ (0 : UInt8) ∉ r.2) →
    ∃ a', servedAll c ifName R a = .ok a' ∧ (∀ n, (∀ r ∈ R, ifName r.1 ≠ some n) → a' n = a n) ∧
      ∀ i n t, ifName i = some n → (∀ r ∈ R, r.1 = i → r.2 = t) → a' n = if (i, t) ∈ R then (a n).map (aliasStored · t) else a n := by
  induction R with
  | nil =>
    intro a _
    exact ⟨a, rfl, fun _ _ => rfl, fun i n t _ _ => by rw [if_neg (by nofun)]⟩
  | cons r R ih =>
    intro a hr
    obtain ⟨r1, r2, r3⟩ := hr r (by simp)
    obtain ⟨a', ha, hother, hmine⟩ := ih ((match ifName r.1 with
        | none => ({} : Parent)
        | some n => if (a n).isSome then ({} : Parent).log (.aliasWrite n r.2) else {}).acts.foldl aliasEffect a) (fun x hx => hr x (by simp [hx]))
    have hstep : ∀ n, (match ifName r.1 with
        | none => ({} : Parent)
        | some n => if (a n).isSome then ({} : Parent).log (.aliasWrite n r.2) else {}).acts.foldl aliasEffect a n =
        if ifName r.1 = some n then (a n).map (aliasStored · r.2) else a n := by
      intro n
      cases e : ifName r.1 with
      | none => rw [if_neg (by nofun)]; rfl
      | some m =>
        dsimp only
        cases ha : a m with
        | none =>
          rw [if_neg (by nofun)]
          by_cases hm : m = n
          · subst hm; rw [if_pos rfl, ha]; exact ha
          · rw [if_neg (by simpa using hm)]; rfl
        | some t =>
          rw [if_pos (show (some t).isSome = true from rfl)]
          show (if n = m then (a n).map (aliasStored · r.2) else a n) = _
          by_cases hm : m = n
          · subst hm; rw [if_pos rfl, if_pos rfl]
          · rw [if_neg (fun hc => hm hc.symm), if_neg (by simpa using hm)]
    refine ⟨a', ?_, ?_, ?_⟩
    · rw [servedAll, show r = (r.1, r.2) from rfl, serveDescr_eq c h.short a {} r1 r2 r3, Res.bind_ok]
      exact ha
    · intro n hn
      rw [hother n (fun x hx => hn x (by simp [hx])), hstep, if_neg (hn r (by simp))]
    · intro i n t hi ht
      rw [hmine i n t hi (fun x hx => ht x (by simp [hx])), hstep]
      by_cases hri : r.1 = i
      · have hrt : r.2 = t := ht r (by simp) hri
        have hr' : r = (i, t) := by rw [← hri, ← hrt]
        rw [hri, hi, if_pos rfl, hrt, if_pos (show (i, t) ∈ r :: R by rw [hr']; simp)]
        split
        · rw [Option.map_map]
          congr 1
          funext x
          exact aliasStored_twice x t
        · rfl
      · have hne : ifName r.1 ≠ some n := fun hc => hri (h.inj _ _ _ hc hi)
        rw [if_neg hne]
        have : (i, t) ∈ r :: R ↔ (i, t) ∈ R := by
          rw [List.mem_cons]
          constructor
          · rintro (hc | hc)
            · exact absurd (by rw [← hc]) hri
            · exact hc
          · exact Or.inr
        by_cases hm : (i, t) ∈ R
        · rw [if_pos hm, if_pos (this.mpr hm)]
        · rw [if_neg hm, if_neg (fun hc => hm (this.mp hc))]

/-! ## The text -/

theorem descrText_length (o : Opts) (i : Nat) (q : List Entry) : (descrText o i q).length ≤ 63 := by
  unfold descrText snprintf64
  dsimp only
  split
  · exact Nat.zero_le _
  · split
    · split
      · rw [List.length_take]; omega
      · rw [List.length_take]; omega
      · exact Nat.zero_le _
    · rw [List.length_take]; omega

/-- A text is empty or says who is connected. -/
theorem descrText_head (o : Opts) (i : Nat) (q : List Entry) : descrText o i q = [] ∨ ∃ t, descrText o i q = lit "connected to " ++ t := by
  have key : ∀ t : Bytes, ∃ t', snprintf64 (lit "connected to " ++ t) = lit "connected to " ++ t' := by
    intro t
    unfold snprintf64
    refine ⟨t.take 50, ?_⟩
    rw [List.take_append, List.take_of_length_le (by decide)]
    rfl
  unfold descrText
  dsimp only
  split
  · exact Or.inl rfl
  · split
    · split
      · right; rw [List.append_assoc, List.append_assoc, List.append_assoc]; exact key _
      · right; exact key _
      · exact Or.inl rfl
    · right; rw [List.append_assoc]; exact key _

theorem safe_nul {t : Bytes} (h : Props.SafeText t) : (0 : UInt8) ∉ t := by
  intro hc
  rcases h 0 hc with ⟨h, -⟩ | h | h | h | h | h <;> exact absurd h (by decide)

theorem descrText_nul (o : Opts) (i : Nat) {q : List Entry} (h : ∀ e ∈ q, Props.PeerSafe e.peer) : (0 : UInt8) ∉ descrText o i q := by
  have hhost : ∀ p, Props.hostOf q i = some p → (0 : UInt8) ∉ p := by
    intro p hp
    unfold Props.hostOf at hp
    obtain ⟨x, hx, rfl⟩ := Option.map_eq_some_iff.mp hp
    obtain ⟨e, he, hn⟩ := List.mem_filterMap.mp (List.mem_of_head? hx)
    intro hc
    exact safe_nul ((h e (List.mem_filter.mp he).1).1 x hn) ((List.takeWhile_sublist _).subset hc)
  have hport : ∀ p, Props.portOf (o.has OPT_USEDESCR) q i = some p → (0 : UInt8) ∉ portnameAbbr p := by
    intro p hp
    unfold Props.portOf at hp
    obtain ⟨e, he, hn⟩ := List.mem_filterMap.mp (List.mem_of_head? hp)
    have hs := h e (List.mem_filter.mp he).1
    have : (0 : UInt8) ∉ p := by
      split at hn
      · exact safe_nul (hs.2.2.1 p hn)
      · exact safe_nul (hs.2.1 p hn)
    obtain ⟨-, a, b, c, h1, h2, -⟩ := Props.C31_shortens p
    rw [h2]
    intro hc
    apply this
    rw [h1]
    rcases List.mem_append.mp hc with hc | hc
    · simp [hc]
    · simp [hc]
  have hlit : (0 : UInt8) ∉ lit "connected to " ∧ (0 : UInt8) ∉ lit " (" ∧ (0 : UInt8) ∉ lit ")" ∧ (0 : UInt8) ∉ lit " peers" := by decide
  have hdec : ∀ n, (0 : UInt8) ∉ decimal16 n := by
    intro n hc
    have := Props.decimal16_digits n 0 hc
    revert this
    decide
  have hcut : ∀ t : Bytes, (0 : UInt8) ∉ t → (0 : UInt8) ∉ snprintf64 t := fun t ht hc => ht ((List.take_sublist _ _).subset hc)
  obtain ⟨d, n, hf⟩ : ∃ d n, q.foldl (descrStep (o.has OPT_USEDESCR) i) {} = ⟨Props.hostOf q i, Props.portOf (o.has OPT_USEDESCR) q i, d, n⟩ := by
    have hf := Props.descr_fold (o.has OPT_USEDESCR) i q {}
    simp only [Option.none_or] at hf
    exact ⟨_, _, hf⟩
  unfold descrText
  rw [hf]
  dsimp only
  split
  · nofun
  · split
    · split
      · next p s hp hs =>
        obtain ⟨s', hs', rfl⟩ := Option.map_eq_some_iff.mp hs
        apply hcut
        simp only [List.mem_append, not_or]
        exact ⟨⟨⟨⟨hlit.1, hhost _ hp⟩, hlit.2.1⟩, hport _ hs'⟩, hlit.2.2.1⟩
      · next p hp hs =>
        apply hcut
        simp only [List.mem_append, not_or]
        exact ⟨hlit.1, hhost _ hp⟩
      · nofun
    · apply hcut
      simp only [List.mem_append, not_or]
      exact ⟨⟨hlit.1, hdec _⟩, hlit.2.2.2⟩

theorem stored_safe {e : Entry} (h : Stored e) : Props.PeerSafe e.peer := by
  obtain ⟨p, m, n, -, hd, -, -, -, hpe⟩ := h.dec.dec
  rw [← hpe]
  have hl := h.dec.len
  have hm := h.dec.msg
  have hmin := h.min
  have e1 : e.msg ++ [1, 0] = e.msg.take e.len ++ (e.msg.drop e.len ++ [1, 0]) := by rw [← List.append_assoc, List.take_append_drop]
  have e2 : (e.msg.take e.len).length = e.len := by rw [List.length_take]; omega
  exact Props.C12_peer_safe p false (e.msg.take e.len) (e.msg.drop e.len ++ [1, 0]) { proto := e.proto } m n (by omega) (by omega)
    (by rw [List.length_append]; exact Nat.le_add_left _ _) ⟨nofun, nofun, nofun, nofun, nofun⟩ (by rw [e2, ← e1]; exact hd)

/-! ## Events and histories -/

theorem sane_alias {k : Kernel} (h : Sane k) (f : Nat → Option Bytes) : Sane { k with alias := f } := by
  intro addrs ha
  obtain ⟨h1, h2, h3⟩ := h addrs ha
  exact ⟨⟨h1.index, h1.name, h1.short, h1.addr⟩, h2, h3⟩

theorem withAlias_sane {e : Event} (h : SaneEvent e) (c : Conf) (ifName : Nat → Option Bytes) (a : Aliases) : SaneEvent (withAlias c ifName a e) := by
  cases e with
  | timer k m now => exact sane_alias h _
  | link k m x y i => exact sane_alias h _
  | recv now r => exact h
  | accept => exact h
  | write sid ws => exact h

theorem withAlias_captured {e : Event} (h : Captured e) (c : Conf) (ifName : Nat → Option Bytes) (a : Aliases) : Captured (withAlias c ifName a e) := by
  cases e with
  | timer k m now => exact trivial
  | link k m x y i => exact trivial
  | recv now r => exact h
  | accept => exact trivial
  | write sid ws => exact trivial

theorem withAlias_clocked {e : Event} (h : Clocked e) (c : Conf) (ifName : Nat → Option Bytes) (a : Aliases) : Clocked (withAlias c ifName a e) := by
  cases e with
  | timer k m now => exact trivial
  | link k m x y i => exact trivial
  | recv now r => exact h
  | accept => exact trivial
  | write sid ws => exact trivial

theorem withAlias_recv {c : Conf} {ifName : Nat → Option Bytes} {a : Aliases} {e : Event} {now : Option Int} {r : RawMsg} :
    withAlias c ifName a e = .recv now r ↔ e = .recv now r := by
  cases e <;> simp [withAlias]

theorem describedStep_ok {c : Conf} {ifName : Nat → Option Bytes} {s s' : Described} {e : Event} (h : describedStep c ifName s e = .ok s') :
    daemonStep c s.daemon (withAlias c ifName s.alias e) = .ok s'.daemon ∧
    servedAll c ifName (s'.daemon.child.out.drop s.daemon.child.out.length) s.alias = .ok s'.alias := by
  unfold describedStep at h
  cases hd : daemonStep c s.daemon (withAlias c ifName s.alias e) with
  | ok d =>
    rw [hd, Res.bind_ok] at h
    cases ha : servedAll c ifName (d.child.out.drop s.daemon.child.out.length) s.alias with
    | ok a =>
      rw [ha, Res.bind_ok] at h
      injection h with h
      subst h
      exact ⟨rfl, ha⟩
    | fail => rw [ha] at h; cases h
    | oob => rw [ha] at h; cases h
    | abort => rw [ha] at h; cases h
    | stuck => rw [ha] at h; cases h
  | fail => rw [hd] at h; cases h
  | oob => rw [hd] at h; cases h
  | abort => rw [hd] at h; cases h
  | stuck => rw [hd] at h; cases h

theorem describedRun_cons {c : Conf} {ifName : Nat → Option Bytes} {e : Event} {es : List Event} {s s' : Described}
    (h : describedRun c ifName (e :: es) s = .ok s') : ∃ s1, describedStep c ifName s e = .ok s1 ∧ describedRun c ifName es s1 = .ok s' := by
  rw [describedRun] at h
  cases hs : describedStep c ifName s e with
  | ok s1 => rw [hs, Res.bind_ok] at h; exact ⟨s1, rfl, h⟩
  | fail => rw [hs] at h; cases h
  | oob => rw [hs] at h; cases h
  | abort => rw [hs] at h; cases h
  | stuck => rw [hs] at h; cases h

theorem describedRun_append {c : Conf} {ifName : Nat → Option Bytes} (xs ys : List Event) (s : Described) :
    describedRun c ifName (xs ++ ys) s = (describedRun c ifName xs s).bind (describedRun c ifName ys) := by
  induction xs generalizing s with
  | nil => rfl
  | cons e xs ih =>
    rw [List.cons_append, describedRun, describedRun]
    cases describedStep c ifName s e with
    | ok s1 => rw [Res.bind_ok, Res.bind_ok, ih]
    | fail => rfl
    | oob => rfl
    | abort => rfl
    | stuck => rfl

theorem described_induction {c : Conf} {ifName : Nat → Option Bytes} {s0 : Described} {P : List Event → Described → Prop} (h0 : P [] s0)
    (hs : ∀ es e s s', describedRun c ifName es s0 = .ok s → P es s → describedStep c ifName s e = .ok s' → P (es ++ [e]) s') :
    ∀ es s, describedRun c ifName es s0 = .ok s → P es s := by
  have aux : ∀ (es pre : List Event) (sm s : Described), describedRun c ifName pre s0 = .ok sm → P pre sm →
      describedRun c ifName es sm = .ok s → P (pre ++ es) s := by
    intro es
    induction es with
    | nil => intro pre sm s _ hp h; cases h; rw [List.append_nil]; exact hp
    | cons e es ih =>
      intro pre sm s hpre hp h
      obtain ⟨s1, h1, h2⟩ := describedRun_cons h
      have := ih (pre ++ [e]) s1 s (by rw [describedRun_append, hpre, Res.bind_ok, describedRun, h1, Res.bind_ok]; rfl) (hs pre e sm s1 hpre hp h1) h2
      rwa [List.append_assoc, List.singleton_append] at this
  intro es s h
  exact aux es [] s0 s rfl h0 h

theorem described_daemon {c : Conf} {ifName : Nat → Option Bytes} : ∀ {es : List Event} {s s' : Described}, describedRun c ifName es s = .ok s' →
    ∃ es', daemonRun c es' s.daemon = .ok s'.daemon ∧ ∀ e' ∈ es', ∃ e ∈ es, ∃ a, e' = withAlias c ifName a e := by
  intro es
  induction es with
  | nil => intro s s' h; cases h; exact ⟨[], rfl, fun _ h => nomatch h⟩
  | cons e es ih =>
    intro s s' h
    obtain ⟨s1, h1, h2⟩ := describedRun_cons h
    obtain ⟨es', hr, hf⟩ := ih h2
    refine ⟨withAlias c ifName s.alias e :: es', ?_, ?_⟩
    · rw [daemonRun, (describedStep_ok h1).1, Res.bind_ok]; exact hr
    · intro e' he'
      rcases List.mem_cons.mp he' with rfl | he'
      · exact ⟨e, by simp, _, rfl⟩
      · obtain ⟨x, hx, a, rfl⟩ := hf e' he'
        exact ⟨x, by simp [hx], a, rfl⟩

theorem good_index {d : Daemon} (h : Good d) {i : Nat} {n : Netif} (hn : netifByIndex d.child.netifs i = some n) : i < 2 ^ 32 := by
  have := (h.ok.1 n (byIndex_mem hn)).1
  rw [byIndex_index hn] at this
  exact this

/-- What an event does to the aliases. -/
theorem described_core {c : Conf} {ifName : Nat → Option Bytes} (hn : NamesOk ifName) {s s' : Described} {e : Event} (hg : Good s'.daemon)
    (hq : ∀ x ∈ s'.daemon.child.queue, Props.PeerSafe x.peer) (hc : Clocked e) (h : describedStep c ifName s e = .ok s') :
    ∃ R, s'.daemon.child.out = s.daemon.child.out ++ R ∧
      Asked c.opts s'.daemon.child.queue s'.daemon.child.netifs (fun i => Hears s.daemon s'.daemon e i ∨
        TextChanges c.opts s.daemon.child.queue s'.daemon.child.queue i) R ∧
      (∀ n, (∀ r ∈ R, ifName r.1 ≠ some n) → s'.alias n = s.alias n) ∧
      ∀ i n, ifName i = some n → s'.alias n = if (i, descrText c.opts i s'.daemon.child.queue) ∈ R
        then (s.alias n).map (aliasStored · (descrText c.opts i s'.daemon.child.queue)) else s.alias n := by
  obtain ⟨h1, h2⟩ := describedStep_ok h
  obtain ⟨R, ho, ha⟩ := step_out (withAlias_clocked hc c ifName s.alias) h1
  rw [ho, List.drop_left] at h2
  refine ⟨R, ho, ?_, ?_⟩
  · refine ha.congr (fun _ => rfl) ?_
    intro i _ hi
    rcases hi with ⟨now, r, he, hi⟩ | hi
    · exact Or.inl ⟨now, r, withAlias_recv.mpr he, hi⟩
    · exact Or.inr hi
  · obtain ⟨a', e1, e2, e3⟩ := servedAll_eq c hn R s.alias (by
      intro r hr
      obtain ⟨n, hn, ht, -⟩ := ha.only r hr
      rw [ht]
      exact ⟨good_index hg hn, descrText_length _ _ _, descrText_nul _ _ hq⟩)
    rw [e1] at h2
    injection h2 with h2
    subst h2
    refine ⟨e2, ?_⟩
    intro i n hi
    refine e3 i n _ hi ?_
    intro r hr hri
    obtain ⟨_, -, ht, -⟩ := ha.only r hr
    rw [ht, hri]

theorem Spec.Lives.good {c : Conf} {ifName : Nat → Option Bytes} {s0 s : Described} {es : List Event} (h : Lives c ifName s0 es s) : Good s.daemon := by
  obtain ⟨es', hr, hf⟩ := described_daemon h.run
  refine good_run h.start.1 ?_ hr
  intro e' he'
  obtain ⟨e, he, a, rfl⟩ := hf e' he'
  exact withAlias_sane (h.events e he).1 _ _ _

theorem Spec.Lives.safe {c : Conf} {ifName : Nat → Option Bytes} {s0 s : Described} {es : List Event} (h : Lives c ifName s0 es s) :
    ∀ x ∈ s.daemon.child.queue, Props.PeerSafe x.peer := by
  obtain ⟨es', hr, hf⟩ := described_daemon h.run
  have := (stored_run h.start.2 (fun e' he' => by
    obtain ⟨e, he, a, rfl⟩ := hf e' he'
    exact withAlias_captured (h.events e he).2.1 _ _ _) hr).1
  exact fun x hx => stored_safe (this x hx)

theorem Spec.Lives.before {c : Conf} {ifName : Nat → Option Bytes} {s0 s : Described} {es : List Event} {e : Event} (h : Lives c ifName s0 (es ++ [e]) s) :
    ∃ s1, Lives c ifName s0 es s1 ∧ Clocked e ∧ describedStep c ifName s1 e = .ok s := by
  have hr := h.run
  rw [describedRun_append] at hr
  cases h1 : describedRun c ifName es s0 with
  | ok s1 =>
    rw [h1, Res.bind_ok] at hr
    obtain ⟨s2, h2, h3⟩ := describedRun_cons hr
    cases h3
    exact ⟨s1, ⟨h.names, h.start, fun x hx => h.events x (by simp [hx]), h1⟩, (h.events e (by simp)).2.2, h2⟩
  | fail => rw [h1] at hr; cases hr
  | oob => rw [h1] at hr; cases hr
  | abort => rw [h1] at hr; cases hr
  | stuck => rw [h1] at hr; cases hr

end Ladvd
