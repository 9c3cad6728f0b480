import Verif.Spec.Log
import Verif.Lemmas.Session
import Verif.Lemmas.Run
import Verif.Lemmas.Keep
import Verif.Lemmas.Cli
/-!
# Lemmas: the log
-/

namespace Ladvd
open Spec

theorem queueLog_cases {o : Opts} {now : Option Int} {r : RawMsg} {st st' : Child} (h : childQueue o now r st = .ok st') :
    (st' = st ∧ queueLog o now r st = [] ∧ ∀ t subif m, now = some t → ¬ Taken st t r subif m) ∨
    ∃ (t : Int) (subif : Netif) (m : Msg), now = some t ∧ Taken st t r subif m ∧
      queueLog o now r st = storeLog o t subif (entryOf st t r subif m) st ∧ queueStore o t subif (entryOf st t r subif m) st = .ok st' := by
  have hf := childQueue_frame h
  unfold childQueue at h
  unfold queueLog
  split at h
  · next hc =>
    left
    rw [if_pos hc]
    cases h
    refine ⟨rfl, rfl, fun t subif m _ ht => ?_⟩
    have := ht.size; omega
  next hsz =>
  rw [if_neg hsz]
  cases now with
  | none => left; cases h; exact ⟨rfl, rfl, fun t subif m hn => by cases hn⟩
  | some t =>
    dsimp only at h
    cases hp : Proto.ofNum r.proto with
    | none => rw [hp] at h; cases h
    | some p =>
      rw [hp] at h
      dsimp only at h
      split at h
      · cases h
      next hlen =>
      cases hn : netifByIndex st.netifs r.index with
      | none =>
        rw [hn] at h; cases h; left
        refine ⟨rfl, rfl, fun t subif m _ ht => ?_⟩
        have := ht.known; rw [hn] at this; cases this
      | some subif =>
        rw [hn] at h
        dsimp only at h ⊢
        split at h
        · next hown =>
          rw [if_pos hown]; cases h; left
          refine ⟨rfl, rfl, fun t subif m _ ht => ?_⟩
          obtain ⟨x, hx, he⟩ := List.any_eq_true.mp hown
          exact ht.foreign x hx (by simpa using he)
        next hown =>
        rw [if_neg hown]
        cases hd : p.decode false (r.msg ++ [1, 0]) r.len.toNat { proto := r.proto } with
        | abort => rw [hd] at h; cases h
        | oob => rw [hd] at h; cases h
        | stuck => rw [hd] at h; cases h
        | fail =>
          rw [hd] at h; cases h; left
          refine ⟨rfl, rfl, fun t subif m _ ht => ?_⟩
          obtain ⟨p', n, h1, h2, _⟩ := ht.proto
          rw [hp] at h1; cases h1
          rw [hd] at h2; cases h2
        | ok mn =>
          obtain ⟨m, n⟩ := mn
          rw [hd] at h
          dsimp only at h ⊢
          split at h
          · next hn0 =>
            rw [if_pos hn0]; cases h; left
            refine ⟨rfl, rfl, fun t subif m _ ht => ?_⟩
            obtain ⟨p', n, h1, h2, h3⟩ := ht.proto
            rw [hp] at h1; cases h1
            rw [hd] at h2; cases h2
            exact h3 hn0
          · next hn0 =>
            rw [if_neg hn0]
            right
            refine ⟨t, subif, m, rfl, ⟨by omega, ⟨p, n, hp, hd, hn0⟩, by omega, hn, ?_⟩, rfl, h⟩
            intro x hx he
            exact hown (List.any_eq_true.mpr ⟨x, hx, by simpa using he⟩)

/-! ## Counting -/

/-- The condition that `present` counts. -/
def named (h : Bytes) (p : Nat) (e : Entry) : Bool := e.peer.hostname == some h && e.proto == p

theorem reported_append (h : Bytes) (p : Nat) (a b : List LogLine) : reported h p (a ++ b) = reported h p a + reported h p b :=
  List.countP_append

theorem dismissed_append (h : Bytes) (p : Nat) (a b : List LogLine) : dismissed h p (a ++ b) = dismissed h p a + dismissed h p b :=
  List.countP_append

theorem expireLog_counts (h : Bytes) (p : Nat) (now : Int) (q : List Entry) :
    reported h p (expireLog now q) = 0 ∧ dismissed h p (expireLog now q) + present h p (q.filter (keeps now)) = present h p q := by
  unfold expireLog present
  induction q with
  | nil => exact ⟨rfl, rfl⟩
  | cons e q ih =>
    cases hk : keeps now e with
    | true =>
      rw [List.filter_cons_of_neg (by simp [hk]), List.filter_cons_of_pos hk, List.countP_cons, List.countP_cons]
      exact ⟨ih.1, by omega⟩
    | false =>
      rw [List.filter_cons_of_pos (by simp [hk]), List.filter_cons_of_neg (by simp [hk]), List.countP_cons]
      cases hh : e.peer.hostname with
      | none =>
        rw [List.filterMap_cons_none (by rw [hh]; rfl)]
        refine ⟨ih.1, ?_⟩
        simp only [show (none == some h) = false from rfl, Bool.false_and]
        have := ih.2
        simp
        omega
      | some x =>
        rw [List.filterMap_cons_some (b := LogLine.removing x e.proto) (by rw [hh]; rfl)]
        unfold reported dismissed at ih ⊢
        rw [List.countP_cons, List.countP_cons]
        refine ⟨by simpa using ih.1, ?_⟩
        have hx : ((some x == some h) : Bool) = (x == h) := rfl
        simp only [hx]
        omega

/-- The neighbours have the names that a function gives. -/
def NamedBy (name : Nat × Nat × Bytes × Bytes → Option Bytes) (q : List Entry) : Prop := ∀ e ∈ q, e.peer.hostname = name (neighbour e)

theorem storeLog_counts {name : Nat × Nat × Bytes × Bytes → Option Bytes} (h : Bytes) (p : Nat) (o : Opts) (now : Int) (subif : Netif) (e : Entry)
    (st st' : Child) (hn : NamedBy name st.queue) (he : e.peer.hostname = name (neighbour e)) (hs : queueStore o now subif e st = .ok st') :
    reported h p (storeLog o now subif e st) + present h p st.queue = dismissed h p (storeLog o now subif e st) + present h p st'.queue := by
  have hq := (queueStore_frame hs).1
  have hput : reported h p (newLog (parentOf st.netifs subif) e st.queue) + present h p st.queue = present h p (queuePut st.queue e) := by
    have hsc := queueScan_spec e st.queue 0 none
    unfold queuePut present newLog
    cases hh : queueScan e.index e.proto (e.msg.take 12) st.queue 0 none with
    | mk msg pm =>
    rw [hh] at hsc
    cases msg with
    | some i =>
      obtain ⟨l1, q, l2, h1, h2, h3, h4⟩ := hsc
      dsimp only
      have hi : i = l1.length := by omega
      rw [h1, hi, List.take_left, List.drop_left]
      dsimp only
      rw [List.countP_append, List.countP_append, List.countP_cons, List.countP_cons]
      have hqn : q.peer.hostname = e.peer.hostname := by
        rw [hn q (by rw [h1]; simp), he, h3]
      have hqp : q.proto = e.proto := congrArg (·.2.1) h3
      rw [hqn, hqp]
      show 0 + _ = _
      dsimp only
      omega
    | none =>
      obtain ⟨h1, h2⟩ := hsc
      dsimp only
      have hins : (queueInsert st.queue pm e).countP (fun e => e.peer.hostname == some h && e.proto == p) =
          st.queue.countP (fun e => e.peer.hostname == some h && e.proto == p) + (if (e.peer.hostname == some h && e.proto == p) = true then 1 else 0) := by
        unfold queueInsert
        cases pm with
        | none => dsimp only; rw [List.countP_append, List.countP_cons, List.countP_nil]; omega
        | some i =>
          dsimp only
          rw [List.countP_append, List.countP_cons]
          conv => rhs; rw [← List.take_append_drop (i + 1) st.queue, List.countP_append]
          omega
      rw [hins]
      cases hh : e.peer.hostname with
      | none =>
        rw [show ((none : Option Bytes) == some h) = false from rfl]
        simp [reported]
      | some x =>
        rw [show ((some x : Option Bytes) == some h) = (x == h) from rfl]
        show reported h p [LogLine.newPeer x e.proto _] + _ = _
        unfold reported
        rw [List.countP_cons, List.countP_nil]
        dsimp only
        omega
  have hd0 : dismissed h p (newLog (parentOf st.netifs subif) e st.queue) = 0 := by
    unfold newLog
    split
    · rfl
    · cases e.peer.hostname <;> rfl
  unfold storeLog
  dsimp only
  rw [reported_append, dismissed_append, hd0, hq]
  by_cases ht : e.ttl = 0
  · rw [if_pos ht, if_pos ht]
    have := expireLog_counts h p now (queuePut st.queue e)
    omega
  · rw [if_neg ht, if_neg ht]
    have h0 : reported h p (enableLog o (parentOf st.netifs subif) subif e) = 0 ∧ dismissed h p (enableLog o (parentOf st.netifs subif) subif e) = 0 := by
      unfold enableLog
      split
      · exact ⟨rfl, rfl⟩
      · split <;> exact ⟨rfl, rfl⟩
    omega

/-- What the log and the names depend on. -/
def face (e : Entry) : Option Bytes × (Nat × Nat × Bytes × Bytes) := (e.peer.hostname, neighbour e)

theorem cliWrite_face {sid : Nat} {ws : Option (List WriteRes)} {st st' : Child} (h : cliWrite sid ws st = .ok st') :
    st'.queue.map face = st.queue.map face := by
  have hlock : ∀ q id f, (setLock q id f).map face = q.map face := fun q id f => setLock_map q id f face (fun _ _ => rfl)
  rcases cliWrite_frame h with ⟨rfl, -⟩ | ⟨sess, hs, -, ⟨-, rfl⟩ | ⟨wl, queue, suffix, -, hst, h⟩⟩
  · rfl
  · rfl
  · have hq : queue.map face = st.queue.map face := by
      rcases cliStart_spec hst with ⟨_, rfl, _⟩ | ⟨id, pre, _, rfl, _⟩
      · rfl
      · exact hlock _ _ _
    rcases h with ⟨c, -, rfl⟩ | ⟨-, rfl⟩
    · exact (hlock _ _ _).trans hq
    · exact hq

theorem present_face {h : Bytes} {p : Nat} {q q' : List Entry} (he : q'.map face = q.map face) : present h p q' = present h p q := by
  have key : ∀ l : List Entry, present h p l = (l.map face).countP (fun f => f.1 == some h && f.2.2.1 == p) := by
    intro l
    unfold present
    rw [List.countP_map]
    rfl
  rw [key, key, he]

theorem namedBy_face {name : Nat × Nat × Bytes × Bytes → Option Bytes} {q q' : List Entry} (he : q'.map face = q.map face)
    (h : NamedBy name q) : NamedBy name q' := by
  intro e hm
  have : face e ∈ q.map face := by rw [← he]; exact List.mem_map_of_mem hm
  obtain ⟨x, hx, hxe⟩ := List.mem_map.mp this
  have h1 := congrArg Prod.fst hxe
  have h2 := congrArg Prod.snd hxe
  simp only [face] at h1 h2
  rw [← h1, ← h2]
  exact h x hx

theorem childLog_counts {name : Nat × Nat × Bytes × Bytes → Option Bytes} (h : Bytes) (p : Nat) {o : Opts} {st st' : Child} {op : ChildOp}
    (hn : NamedBy name st.queue) (hst : OneName name [op]) (hs : childStep o st op = .ok st') :
    reported h p (childLog o st op) + present h p st.queue = dismissed h p (childLog o st op) + present h p st'.queue ∧ NamedBy name st'.queue := by
  cases op with
  | recv now r =>
    rcases queueLog_cases hs with ⟨rfl, h1, -⟩ | ⟨t, subif, m, h1, h2, h3, h4⟩
    · show reported h p (queueLog o now r st') + _ = dismissed h p (queueLog o now r st') + _ ∧ _
      rw [h1]
      exact ⟨rfl, hn⟩
    · have he : (entryOf st t r subif m).peer.hostname = name (neighbour (entryOf st t r subif m)) := by
        obtain ⟨p', n, k1, k2, k3⟩ := h2.proto
        exact hst now r (List.mem_singleton.mpr rfl) p' m n k1 k2 k3
      show reported h p (queueLog o now r st) + _ = dismissed h p (queueLog o now r st) + _ ∧ _
      rw [h3]
      refine ⟨storeLog_counts h p o t subif _ st st' hn he h4, ?_⟩
      have hq := (queueStore_frame h4).1
      have hput : NamedBy name (queuePut st.queue (entryOf st t r subif m)) := by
        intro x hx
        rcases queuePut_cases st.queue (entryOf st t r subif m) with ⟨l1, q, l2, k1, k2, -, k4⟩ | ⟨-, l1, l2, k1, k2, -, -⟩
        · rw [k4] at hx
          rcases List.mem_append.mp hx with hx | hx
          · exact hn x (by rw [k1]; simp [hx])
          · rcases List.mem_cons.mp hx with rfl | hx
            · exact he
            · exact hn x (by rw [k1]; simp [hx])
        · rw [k2] at hx
          rcases List.mem_append.mp hx with hx | hx
          · exact hn x (by rw [k1]; simp [hx])
          · rcases List.mem_cons.mp hx with rfl | hx
            · exact he
            · exact hn x (by rw [k1]; simp [hx])
      intro x hx
      rw [hq] at hx
      split at hx
      · exact hput x (List.mem_filter.mp hx).1
      · exact hput x hx
  | expire now =>
    have hq := (childExpire_frame hs).1
    have := expireLog_counts h p now st.queue
    rw [hq]
    refine ⟨by show reported h p (expireLog now st.queue) + _ = dismissed h p (expireLog now st.queue) + _; omega, ?_⟩
    intro x hx
    exact hn x (List.mem_filter.mp hx).1
  | fetch l => cases hs; exact ⟨rfl, hn⟩
  | accept => cases hs; exact ⟨rfl, hn⟩
  | write sid ws =>
    have hf := cliWrite_face hs
    refine ⟨?_, namedBy_face hf hn⟩
    rw [present_face hf]
    rfl

theorem childRunLog_counts {name : Nat × Nat × Bytes × Bytes → Option Bytes} (h : Bytes) (p : Nat) (o : Opts) (ops : List ChildOp) :
    ∀ (st st' : Child), NamedBy name st.queue → OneName name ops → childRun o st ops = .ok st' →
      reported h p (childRunLog o st ops) + present h p st.queue = dismissed h p (childRunLog o st ops) + present h p st'.queue := by
  induction ops with
  | nil => intro st st' _ _ hr; cases hr; rfl
  | cons op ops ih =>
    intro st st' hn ho hr
    rw [childRun] at hr
    rw [childRunLog]
    cases hs : childStep o st op with
    | ok s =>
      rw [hs] at hr
      obtain ⟨h1, h2⟩ := childLog_counts h p hn (fun now r hm => ho now r (by rw [List.mem_singleton.mp hm]; simp)) hs
      have h3 := ih s st' h2 (fun now r hm => ho now r (List.mem_cons_of_mem _ hm)) hr
      dsimp only
      rw [reported_append, dismissed_append]
      omega
    | fail => rw [hs] at hr; cases hr
    | oob => rw [hs] at hr; cases hr
    | abort => rw [hs] at hr; cases hr
    | stuck => rw [hs] at hr; cases hr

/-! ## What the lines mention -/

/-- The names of neighbours and interfaces in a line. -/
def LogLine.Mentions (H I : Bytes → Prop) : LogLine → Prop
  | .newPeer h _ i => H h ∧ I i
  | .removing h _ => H h
  | .enabling _ i => I i

theorem expireLog_mentions {H I : Bytes → Prop} {now : Int} {q : List Entry} (hq : ∀ e ∈ q, ∀ h ∈ e.peer.hostname, H h) :
    ∀ m ∈ expireLog now q, m.Mentions H I := by
  intro m hm
  obtain ⟨e, he, hme⟩ := List.mem_filterMap.mp hm
  cases hh : e.peer.hostname with
  | none => rw [hh] at hme; cases hme
  | some h =>
    rw [hh] at hme
    cases hme
    exact hq e (List.mem_filter.mp he).1 h (by rw [hh]; rfl)

theorem parentOf_mem {l : List Netif} {s : Netif} (hs : s ∈ l) : parentOf l s ∈ l := by
  unfold parentOf
  cases s.parent with
  | none => exact hs
  | some i =>
    rw [Option.bind_some]
    cases hn : netifByIndex l i with
    | none => exact hs
    | some n => exact List.mem_of_find?_eq_some hn

theorem childLog_mentions {H I : Bytes → Prop} {o : Opts} {st st' : Child} {op : ChildOp} (hs : childStep o st op = .ok st')
    (hr : ∀ t r subif m, op = .recv (some t) r → Taken st t r subif m → ∀ h ∈ m.peer.hostname, H h)
    (hq : ∀ e ∈ st.queue, ∀ h ∈ e.peer.hostname, H h) (hi : ∀ n ∈ st.netifs, I n.name) :
    ∀ m ∈ childLog o st op, m.Mentions H I := by
  cases op with
  | recv now r =>
    rcases queueLog_cases hs with ⟨rfl, h1, -⟩ | ⟨t, subif, m, rfl, h2, h3, h4⟩
    · intro m hm
      have hm : m ∈ queueLog o now r st' := hm
      rw [h1] at hm; cases hm
    · intro x hx
      have hx : x ∈ queueLog o (some t) r st := hx
      rw [h3] at hx
      have hH := hr t r subif m rfl h2
      have hp : I (parentOf st.netifs subif).name := hi _ (parentOf_mem (List.mem_of_find?_eq_some h2.known))
      unfold storeLog at hx
      rcases List.mem_append.mp hx with hx | hx
      · unfold newLog at hx
        split at hx
        · cases hx
        · cases hh : m.peer.hostname with
          | none =>
            rw [show (entryOf st t r subif m).peer.hostname = none from hh] at hx; cases hx
          | some h =>
            rw [show (entryOf st t r subif m).peer.hostname = some h from hh] at hx
            have hx : x = _ := List.mem_singleton.mp hx
            rw [hx]
            exact ⟨hH h (by rw [hh]; rfl), hp⟩
      · split at hx
        · refine expireLog_mentions (fun e he => ?_) x hx
          rcases queuePut_cases st.queue (entryOf st t r subif m) with ⟨l1, q, l2, k1, -, -, k4⟩ | ⟨-, l1, l2, k1, k2, -, -⟩
          · rw [k4] at he
            rcases List.mem_append.mp he with he | he
            · exact hq e (by rw [k1]; simp [he])
            · rcases List.mem_cons.mp he with rfl | he
              · exact hH
              · exact hq e (by rw [k1]; simp [he])
          · rw [k2] at he
            rcases List.mem_append.mp he with he | he
            · exact hq e (by rw [k1]; simp [he])
            · rcases List.mem_cons.mp he with rfl | he
              · exact hH
              · exact hq e (by rw [k1]; simp [he])
        · unfold enableLog at hx
          split at hx
          · cases hx
          · split at hx
            · cases hx
            · have hx : x = _ := List.mem_singleton.mp hx
              rw [hx]
              exact hp
  | expire now => exact expireLog_mentions hq
  | fetch l => intro m hm; cases hm
  | accept => intro m hm; cases hm
  | write sid ws => intro m hm; cases hm

theorem childStep_names {I : Bytes → Prop} {o : Opts} {st st' : Child} {op : ChildOp} (hs : childStep o st op = .ok st')
    (hi : ∀ n ∈ st.netifs, I n.name) (hf : ∀ l, op = .fetch l → ∀ n ∈ l, I n.name) : ∀ n ∈ st'.netifs, I n.name := by
  have key : st'.netifs.map bare = st.netifs.map bare → ∀ n ∈ st'.netifs, I n.name := by
    intro hb n hn
    have : bare n ∈ st.netifs.map bare := by rw [← hb]; exact List.mem_map_of_mem hn
    obtain ⟨x, hx, hxn⟩ := List.mem_map.mp this
    have : x.name = n.name := by have h := congrArg (fun y : Netif => y.name) hxn; exact h
    rw [← this]
    exact hi x hx
  cases op with
  | recv now r => exact key (childQueue_bare hs)
  | expire now => exact key (childExpire_bare hs)
  | fetch l => cases hs; exact hf l rfl
  | accept => cases hs; exact hi
  | write sid ws => exact key (congrArg (List.map bare) (cliWrite_origin hs).1)

theorem childRunLog_mentions {H I : Bytes → Prop} {o : Opts} {ops : List ChildOp} : ∀ {st st' : Child}, childRun o st ops = .ok st' →
    (∀ st t r subif m, ChildOp.recv (some t) r ∈ ops → Taken st t r subif m → ∀ h ∈ m.peer.hostname, H h) →
    (∀ l, ChildOp.fetch l ∈ ops → ∀ n ∈ l, I n.name) →
    (∀ e ∈ st.queue, ∀ h ∈ e.peer.hostname, H h) → (∀ x ∈ st.sent, ∀ h ∈ x.2.peer.hostname, H h) → (∀ n ∈ st.netifs, I n.name) →
    ∀ m ∈ childRunLog o st ops, m.Mentions H I := by
  induction ops with
  | nil => intro st st' _ _ _ _ _ _ m hm; cases hm
  | cons op ops ih =>
    intro st st' hrun hr hf hq hsent hi m hm
    rw [childRun] at hrun
    rw [childRunLog] at hm
    cases hs : childStep o st op with
    | ok s =>
      rw [hs] at hrun hm
      rcases List.mem_append.mp hm with hm | hm
      · exact childLog_mentions hs (fun t r subif m ho ht => hr st t r subif m (by rw [ho]; simp) ht) hq hi m hm
      · have he := entries_step (P := fun e => ∀ h ∈ e.peer.hostname, H h) (fun _ _ _ h => h)
          (fun t r subif m ho ht => hr st t r subif m (by rw [ho]; simp) ht) hq hsent hs
        exact ih hrun (fun st t r subif m hm ht => hr st t r subif m (List.mem_cons_of_mem _ hm) ht) (fun l hl => hf l (List.mem_cons_of_mem _ hl))
          he.1 he.2 (childStep_names hs hi (fun l hl => hf l (by rw [hl]; simp))) m hm
    | fail => rw [hs] at hrun; cases hrun
    | oob => rw [hs] at hrun; cases hrun
    | abort => rw [hs] at hrun; cases hrun
    | stuck => rw [hs] at hrun; cases hrun

end Ladvd
