import Verif.Lemmas.HeapTable
/-!
# Lemmas: histories on the memory level agree with the ones on values
-/

namespace Ladvd
open Spec

/-- A state on the memory level and one on values. -/
structure Rel (h : HChild) (c : Child) : Prop where
  shows : Shows h c
  mem : TInv h.heap h.queue
  objs : OInv h.objs (h.queue.map (·.e.id) ++ h.sessions.map (·.sid)) h.nextId
  bare : ∀ x ∈ h.queue, x.e.peer = {}

/-- The outcomes agree. -/
def RAgree (x : Res HChild) (y : Res Child) : Prop :=
  match x, y with
  | .ok h, .ok c => Rel h c
  | .fail, .fail => True
  | .oob, .oob => True
  | .abort, .abort => True
  | .stuck, .stuck => True
  | _, _ => False

theorem ragree_bind {x : Res HChild} {y : Res Child} {f : HChild → Res HChild} {g : Child → Res Child}
    (h1 : RAgree x y) (h2 : ∀ h c, Rel h c → RAgree (f h) (g c)) : RAgree (x.bind f) (y.bind g) := by
  cases x <;> cases y <;> first
    | exact h2 _ _ h1
    | exact h1
    | exact h1.elim

/-! ## The update of the interfaces -/

theorem netifProtos_texts (l : List Netif) (n : Netif) (q : List HEntry) (h : Heap) :
    netifProtos l n (q.map (·.e)) = netifProtos l n (q.map (entryTexts h)) := by
  unfold netifProtos
  simp only [List.foldl_map]
  rfl

theorem queueScan_texts (index proto : Nat) (a : Bytes) (h : Heap) (q : List HEntry) (i : Nat) (pm : Option Nat) :
    queueScan index proto a (q.map (·.e)) i pm = queueScan index proto a (q.map (entryTexts h)) i pm := by
  induction q generalizing i pm with
  | nil => rfl
  | cons x q ih =>
    rw [List.map_cons, List.map_cons]
    unfold queueScan
    simp only [ih]
    rfl

theorem queueScan_lt (index proto : Nat) (a : Bytes) (q : List Entry) (i : Nat) (pm : Option Nat) {k : Nat} {p : Option Nat}
    (hk : queueScan index proto a q i pm = (some k, p)) : i ≤ k ∧ k < i + q.length := by
  induction q generalizing i pm with
  | nil => simp [queueScan] at hk
  | cons x q ih =>
    unfold queueScan at hk
    rw [List.length_cons]
    split at hk
    · have := ih _ _ hk; omega
    · dsimp only at hk
      generalize (if List.drop 6 a = List.take 6 (List.drop 6 x.msg) then some i else pm) = pm' at hk
      split at hk
      · have := ih _ _ hk; omega
      · split at hk
        · have := ih _ _ hk; omega
        · obtain ⟨h1, -⟩ := Prod.mk.inj hk
          obtain rfl := Option.some.inj h1
          omega

/-- A change of the interfaces alone. -/
theorem rel_netifs {h : HChild} {c : Child} (hr : Rel h c) (f : List Netif → List Netif) :
    Rel { h with netifs := f h.netifs } { c with netifs := f c.netifs } :=
  ⟨⟨congrArg f hr.shows.netifs, hr.shows.queue, hr.shows.sessions, hr.shows.nextId, hr.shows.out, hr.shows.sent⟩, hr.mem,
    hr.objs, hr.bare⟩

theorem hProtos_agree (o : Opts) (netif : Netif) {h : HChild} {c : Child} (hr : Rel h c) :
    RAgree (hProtos o netif h) (if o.has OPT_AUTO then
      (netifProtos c.netifs netif c.queue).bind (fun p =>
        .ok { c with netifs := setNetif c.netifs netif.index (fun n => { n with protos := p }) })
      else .ok c) := by
  unfold hProtos
  cases o.has OPT_AUTO with
  | false => exact hr
  | true =>
    rw [if_pos rfl, if_pos rfl, netifProtos_texts _ _ _ h.heap, hr.shows.queue, hr.shows.netifs]
    cases netifProtos c.netifs netif c.queue with
    | ok p =>
      have := rel_netifs hr (fun l => setNetif l netif.index (fun n => { n with protos := p }))
      rwa [hr.shows.netifs] at this
    | _ => exact trivial

/-- A description request does not change what is allocated. -/
theorem hDescribe_agree (o : Opts) (n : Netif) {h : HChild} {c : Child} (hr : Rel h c) :
    RAgree (hDescribe o n h) (.ok (if o.has OPT_IFDESCR then
      { c with out := c.out ++ (netifDescr o n c.queue).toList } else c)) := by
  unfold hDescribe
  cases o.has OPT_IFDESCR with
  | false => exact hr
  | true =>
    rw [if_pos rfl, if_pos rfl]
    obtain ⟨h', h1, h2, h3⟩ := hNetifDescr_spec o n hr.mem
    rw [hr.shows.queue] at h1
    rw [h1]
    refine ⟨?_, ?_, hr.objs, hr.bare⟩
    · refine ⟨hr.shows.netifs, ?_, hr.shows.sessions, hr.shows.nextId, ?_, hr.shows.sent⟩
      · rw [← hr.shows.queue]
        exact map_entryTexts_congr (fun p _ => h3 p)
      · show h.out ++ _ = c.out ++ _
        rw [hr.shows.out]
    · exact ⟨h2, hr.mem.len, hr.mem.nodup, fun p => by
        show (h'.at p).isSome ↔ _
        rw [h3]; exact hr.mem.exact p⟩

theorem updateNetifs_cons (o : Opts) (i : Nat) (is : List Nat) (c : Child) :
    updateNetifs o (i :: is) c =
      match netifByIndex c.netifs i with
      | none => updateNetifs o is c
      | some subif =>
        if subif.update = 0 then updateNetifs o is c
        else
          (if o.has OPT_AUTO then
            (netifProtos c.netifs (parentOf c.netifs subif) c.queue).bind (fun p =>
              .ok { c with netifs := setNetif c.netifs (parentOf c.netifs subif).index (fun n => { n with protos := p }) })
            else .ok c).bind (fun c =>
              (Res.ok (if o.has OPT_IFDESCR then
                { c with out := c.out ++ (netifDescr o subif c.queue).toList } else c)).bind (fun c =>
                updateNetifs o is { c with netifs := setNetif c.netifs i (fun n => { n with update := 0 }) })) := by
  rw [updateNetifs.eq_def]
  dsimp only
  cases netifByIndex c.netifs i with
  | none => rfl
  | some subif =>
    dsimp only
    split
    · rfl
    · cases o.has OPT_AUTO with
      | false => rfl
      | true =>
        simp only [if_true, Res.bind_eq, Res.pure_eq]
        cases netifProtos c.netifs (parentOf c.netifs subif) c.queue <;> rfl

theorem hUpdateNetifs_agree (o : Opts) (is : List Nat) {h : HChild} {c : Child} (hr : Rel h c) :
    RAgree (hUpdateNetifs o is h) (updateNetifs o is c) := by
  induction is generalizing h c with
  | nil => exact hr
  | cons i is ih =>
    rw [updateNetifs_cons]
    unfold hUpdateNetifs
    rw [hr.shows.netifs]
    cases netifByIndex c.netifs i with
    | none => exact ih hr
    | some subif =>
      dsimp only
      by_cases hu : subif.update = 0
      · rw [if_pos hu, if_pos hu]
        exact ih hr
      · rw [if_neg hu, if_neg hu]
        refine ragree_bind (hProtos_agree o _ hr) (fun h c hr => ?_)
        refine ragree_bind (hDescribe_agree o _ hr) (fun h c hr => ?_)
        exact ih (rel_netifs hr (fun l => setNetif l i (fun n => { n with update := 0 })))

/-! ## Expiry -/

theorem hExpire_agree (o : Opts) (now : Int) {h : HChild} {c : Child} (hr : Rel h c) :
    RAgree (hExpire o now h) (childExpire o now c) := by
  obtain ⟨h', objs', h1, h2, h3, h4⟩ := hRemove_spec now h.queue [] (h.sessions.map Session.sid) h.nextId h.heap h.objs hr.mem
    hr.objs
  unfold hExpire childExpire
  rw [h1, Res.bind_ok]
  dsimp only
  have hq : ∀ (f : Entry → Bool) (g : HEntry → Bool), (∀ x, f (entryTexts h.heap x) = g x) →
      c.queue.filter f = (h.queue.filter g).map (entryTexts h.heap) := by
    intro f g hfg
    rw [← hr.shows.queue, List.filter_map]
    congr 1
    apply List.filter_congr
    intro x _
    exact hfg x
  have e1 := hq (fun e => !keeps now e) (fun q => !keeps now q.e) (fun _ => rfl)
  have e2 := hq (keeps now) (fun q => keeps now q.e) (fun _ => rfl)
  rw [e1, e2, hr.shows.netifs]
  simp only [List.any_map]
  refine hUpdateNetifs_agree o _ ⟨⟨rfl, ?_, hr.shows.sessions, hr.shows.nextId, hr.shows.out, hr.shows.sent⟩, h2, h3, ?_⟩
  · exact map_entryTexts_congr h4
  · intro x hx
    exact hr.bare x (List.mem_filter.mp hx).1

/-! ## Reception -/

/-- The message about to be stored, on top of the table. -/
structure Incoming (h : HChild) (c : Child) (q : HEntry) (e : Entry) : Prop where
  netifs : h.netifs = c.netifs
  queue : h.queue.map (entryTexts h.heap) = c.queue
  sessions : h.sessions = c.sessions
  nextId : h.nextId = c.nextId
  out : h.out = c.out
  sent : h.sent = c.sent.map (fun x => (x.1, withoutPeer x.2))
  entry : entryTexts h.heap q = e
  mem : TInv h.heap (q :: h.queue)
  objs : OInv h.objs (h.queue.map (·.e.id) ++ h.sessions.map (·.sid)) h.nextId
  bare : ∀ x ∈ q :: h.queue, x.e.peer = {}
  fresh : q.e.id = h.nextId

theorem oinv_new {objs ids : List Nat} {next : Nat} (ho : OInv objs ids next) : OInv (next :: objs) (next :: ids) (next + 1) := by
  refine ⟨ho.perm.cons _, ?_, ?_⟩
  · rw [List.nodup_cons]
    exact ⟨fun hm => absurd (ho.below _ hm) (by omega), ho.nodup⟩
  · intro i hi
    rcases List.mem_cons.mp hi with rfl | hi
    · omega
    · have := ho.below i hi; omega

theorem hPut_agree {h : HChild} {c : Child} {q : HEntry} {e : Entry} (hi : Incoming h c q e) :
    RAgree (hPut h q) (.ok { c with queue := queuePut c.queue e, nextId := c.nextId + 1 }) := by
  unfold hPut queuePut
  have he := hi.entry
  rw [show e.index = q.e.index by rw [← he]; rfl, show e.proto = q.e.proto by rw [← he]; rfl,
    show e.msg = q.e.msg by rw [← he]; rfl]
  rw [queueScan_texts _ _ _ h.heap, hi.queue]
  cases hs : queueScan q.e.index q.e.proto (q.e.msg.take 12) c.queue 0 none with
  | mk a pm =>
  cases a with
  | some i =>
    dsimp only
    have hlt := (queueScan_lt _ _ _ _ _ _ hs).2
    have hlen : h.queue.length = c.queue.length := by rw [← hi.queue, List.length_map]
    have hlt' : i < h.queue.length := by omega
    rw [List.drop_eq_getElem_cons hlt']
    dsimp only
    generalize hoo : h.queue[i] = oo
    have hsplit : h.queue = h.queue.take i ++ oo :: h.queue.drop (i + 1) := by
      rw [← hoo, ← List.drop_eq_getElem_cons hlt', List.take_append_drop]
    have hperm : (q :: h.queue).Perm (oo :: (h.queue.take i ++ q :: h.queue.drop (i + 1))) := by
      refine List.Perm.trans ?_ (List.Perm.cons oo List.perm_middle.symm)
      refine List.Perm.trans ?_ (List.Perm.swap _ _ _)
      refine List.Perm.cons _ ?_
      conv => lhs; rw [hsplit]
      exact List.perm_middle
    obtain ⟨h', hf, ht, ha⟩ := tinv_free (tinv_perm hi.mem hperm)
    rw [hf, Res.bind_ok]
    generalize hnew : ({ q with e := { q.e with id := oo.e.id } } : HEntry) = new
    have hnp : new.peer = q.peer := by rw [← hnew]
    have hids : (h.queue.take i ++ new :: h.queue.drop (i + 1)).map (·.e.id) = h.queue.map (·.e.id) := by
      conv => rhs; rw [hsplit]
      rw [List.map_append, List.map_append, List.map_cons, List.map_cons, ← hnew]
    have hptr : pointers (h.queue.take i ++ new :: h.queue.drop (i + 1)) = pointers (h.queue.take i ++ q :: h.queue.drop (i + 1)) := by
      unfold pointers
      rw [List.flatMap_append, List.flatMap_append, List.flatMap_cons, List.flatMap_cons, hnp]
    have hmem : ∀ x ∈ h.queue.take i ++ new :: h.queue.drop (i + 1), x = new ∨ x ∈ h.queue := by
      intro x hx
      rcases List.mem_append.mp hx with hx | hx
      · exact .inr (List.mem_of_mem_take hx)
      · rcases List.mem_cons.mp hx with hx | hx
        · exact .inl hx
        · exact .inr (List.mem_of_mem_drop hx)
    refine ⟨⟨hi.netifs, ?_, hi.sessions, ?_, hi.out, hi.sent⟩, ?_, ?_, ?_⟩
    · show (h.queue.take i ++ new :: h.queue.drop (i + 1)).map (entryTexts h') = _
      rw [map_entryTexts_congr (h := h.heap) (fun p hp => ha p (by rw [← hptr]; exact hp))]
      rw [← hi.queue, List.map_append, List.map_cons, ← List.map_drop, ← List.map_take]
      congr 1
      rw [List.drop_eq_getElem_cons hlt', hoo]
      rw [← hnew, ← he]
      rfl
    · show h.nextId + 1 = c.nextId + 1
      rw [hi.nextId]
    · refine ⟨ht.wf, ?_, ?_, ?_⟩
      · intro x hx
        rcases hmem x hx with rfl | hx
        · rw [hnp]; exact hi.mem.len q List.mem_cons_self
        · exact hi.mem.len x (List.mem_cons_of_mem _ hx)
      · show (pointers (h.queue.take i ++ new :: h.queue.drop (i + 1))).Nodup
        rw [hptr]; exact ht.nodup
      · intro p
        show _ ↔ p ∈ pointers (h.queue.take i ++ new :: h.queue.drop (i + 1))
        rw [hptr]; exact ht.exact p
    · show OInv h.objs ((h.queue.take i ++ new :: h.queue.drop (i + 1)).map (·.e.id) ++ _) (h.nextId + 1)
      rw [hids]
      exact ⟨hi.objs.perm, hi.objs.nodup, fun i hm => by have := hi.objs.below i hm; omega⟩
    · intro x hx
      rcases hmem x hx with rfl | hx
      · rw [← hnew]; exact hi.bare q List.mem_cons_self
      · exact hi.bare x (List.mem_cons_of_mem _ hx)
  | none =>
    dsimp only
    have fin : ∀ {q' : List HEntry} {cq : List Entry}, (q :: h.queue).Perm q' → q'.map (entryTexts h.heap) = cq →
        Rel { h with queue := q', objs := q.e.id :: h.objs, nextId := h.nextId + 1 }
          { c with queue := cq, nextId := c.nextId + 1 } := by
      intro q' cq hp hm
      refine ⟨⟨hi.netifs, hm, hi.sessions, ?_, hi.out, hi.sent⟩, tinv_perm hi.mem hp, ?_, ?_⟩
      · show h.nextId + 1 = c.nextId + 1
        rw [hi.nextId]
      · show OInv (q.e.id :: h.objs) _ (h.nextId + 1)
        rw [hi.fresh]
        refine oinv_perm (oinv_new hi.objs) ?_
        have := (hp.map (·.e.id)).append_right (h.sessions.map (·.sid))
        rw [List.map_cons, hi.fresh] at this
        exact this
      · intro x hx
        exact hi.bare x (hp.mem_iff.mpr hx)
    unfold queueInsert
    cases pm with
    | none =>
      refine fin (List.perm_append_singleton _ _).symm ?_
      rw [List.map_append, hi.queue, List.map_cons, he]
      rfl
    | some i =>
      refine fin ?_ ?_
      · refine List.Perm.trans ?_ List.perm_middle.symm
        rw [List.take_append_drop]
      · rw [List.map_append, List.map_cons, he, ← hi.queue, List.map_take, List.map_drop]

theorem hStore_agree (o : Opts) (now : Int) (subif : Netif) {h : HChild} {c : Child} {q : HEntry} {e : Entry}
    (hi : Incoming h c q e) : RAgree (hStore o now subif q h) (queueStore o now subif e c) := by
  unfold hStore queueStore
  have he := hi.entry
  rw [show e.proto = q.e.proto by rw [← he]; rfl, show e.ttl = q.e.ttl by rw [← he]; rfl, hi.netifs]
  dsimp only
  have hp := hPut_agree hi
  cases hpe : hPut h q with
  | ok h1 =>
    rw [hpe] at hp
    have hp : Rel h1 { c with queue := queuePut c.queue e, nextId := c.nextId + 1 } := hp
    rw [Res.bind_ok]
    split
    · exact hExpire_agree o now hp
    · have hd := hDescribe_agree o subif hp
      cases hde : hDescribe o subif h1 with
      | ok h2 =>
        rw [hde] at hd
        rw [Res.bind_ok]
        have hd : Rel h2 _ := hd
        split
        · exact hd
        · split
          · exact hd
          · exact rel_netifs hd (fun l => setNetif l (parentOf c.netifs subif).index
              (fun n => { n with protos := (n.protos ||| (1 <<< q.e.proto)) % 256 }))
      | _ => rw [hde] at hd; exact hd.elim
  | _ => rw [hpe] at hp; exact hp.elim

theorem own_release {base : Nat → Option Bytes} {m : HMsg} (ho : Own base m) :
    ∃ h', peerFree m.heap m.peer = .ok h' ∧ h'.Wf ∧ ∀ p, h'.at p = base p := by
  obtain ⟨h', h1, h2, -, h3⟩ := peerFree_spec ho.wf ho.nodup (fun p hp => (ho.mine p hp).1)
  refine ⟨h', h1, h2, fun p => ?_⟩
  rw [h3]
  split
  · rename_i hm; rw [(ho.mine p hm).2]
  · rename_i hm; exact ho.rest p hm

theorem rel_same_heap {h : HChild} {c : Child} (hr : Rel h c) {h' : Heap} (hw : h'.Wf) (ha : ∀ p, h'.at p = h.heap.at p) :
    Rel { h with heap := h' } c := by
  refine ⟨⟨hr.shows.netifs, ?_, hr.shows.sessions, hr.shows.nextId, hr.shows.out, hr.shows.sent⟩, ?_, hr.objs, hr.bare⟩
  · rw [← hr.shows.queue]
    exact map_entryTexts_congr (fun p _ => ha p)
  · exact ⟨hw, hr.mem.len, hr.mem.nodup, fun p => by
      show (h'.at p).isSome ↔ _
      rw [ha]; exact hr.mem.exact p⟩

theorem rel_release {h : HChild} {c : Child} (hr : Rel h c) {m : HMsg} (ho : Own h.heap.at m) :
    RAgree ((peerFree m.heap m.peer).bind (fun x => .ok { h with netifs := c.netifs, heap := x })) (.ok c) := by
  obtain ⟨h', h1, h2, h3⟩ := own_release ho
  rw [h1, ← hr.shows.netifs]
  exact rel_same_heap hr h2 h3

theorem own_start {h : HChild} {c : Child} (hr : Rel h c) (proto : Nat) :
    Own h.heap.at { heap := h.heap, proto := proto } :=
  ⟨hr.mem.wf, rfl, List.nodup_nil, fun p hp => absurd hp (by simp), fun _ _ => rfl⟩

theorem hQueue_agree (o : Opts) (now : Option Int) (r : RawMsg) {h : HChild} {c : Child} (hr : Rel h c) :
    RAgree (hQueue o now r h) (childQueue o now r c) := by
  unfold hQueue childQueue
  split
  · exact hr
  · cases now with
    | none => exact hr
    | some now =>
      dsimp only
      cases Proto.ofNum r.proto with
      | none => exact trivial
      | some p =>
        dsimp only
        split
        · exact trivial
        · rw [hr.shows.netifs]
          cases netifByIndex c.netifs r.index with
          | none => exact hr
          | some subif =>
            dsimp only
            split
            · exact hr
            · have hd := ref_decode p (r.msg ++ [1, 0]) r.len.toNat h.heap.at _ (own_start hr r.proto)
              rw [show msgTexts { heap := h.heap, proto := r.proto } = { proto := r.proto } from rfl] at hd
              cases hx : p.hDecode (r.msg ++ [1, 0]) r.len.toNat { heap := h.heap, proto := r.proto } with
              | ok n m =>
                rw [hx] at hd
                obtain ⟨hd, ho⟩ := hd
                dsimp only at hd ⊢
                rw [hd]
                dsimp only [withLen]
                split
                · exact rel_release hr ho
                · refine hStore_agree o now subif ?_
                  have hbase : ∀ p ∈ pointers h.queue, m.heap.at p = h.heap.at p := fun p hp => by
                    refine ho.rest p (fun hm => ?_)
                    have := (hr.mem.exact p).mpr hp
                    rw [(ho.mine p hm).2] at this
                    exact absurd this (by simp)
                  refine ⟨rfl, ?_, hr.shows.sessions, hr.shows.nextId, hr.shows.out, hr.shows.sent, ?_, ?_, hr.objs, ?_, rfl⟩
                  · show h.queue.map (entryTexts m.heap) = c.queue
                    rw [← hr.shows.queue]
                    exact map_entryTexts_congr hbase
                  · rw [← hr.shows.nextId]; rfl
                  · refine ⟨ho.wf, ?_, ?_, ?_⟩
                    · intro x hx
                      rcases List.mem_cons.mp hx with rfl | hx
                      · exact ho.len
                      · exact hr.mem.len x hx
                    · rw [pointers_cons, List.nodup_append]
                      refine ⟨ho.nodup, hr.mem.nodup, fun a ha b hb hab => ?_⟩
                      have h1 := (hr.mem.exact b).mpr hb
                      rw [← hab, (ho.mine a (mem_own.mp ha)).2] at h1
                      exact absurd h1 (by simp)
                    · intro p
                      show (m.heap.at p).isSome ↔ _
                      rw [pointers_cons, List.mem_append]
                      by_cases hm : some p ∈ m.peer
                      · exact ⟨fun _ => .inl (mem_own.mpr hm), fun _ => (ho.mine p hm).1⟩
                      · rw [ho.rest p hm, hr.mem.exact p]
                        constructor
                        · exact .inr
                        · rintro (h1 | h1)
                          · exact absurd (mem_own.mp h1) hm
                          · exact h1
                  · intro x hx
                    rcases List.mem_cons.mp hx with rfl | hx
                    · rfl
                    · exact hr.bare x hx
              | fail m =>
                rw [hx] at hd
                obtain ⟨hd, ho⟩ := hd
                dsimp only at hd ⊢
                rw [hd]
                exact rel_release hr ho
              | oob => rw [hx] at hd; dsimp only [Agrees] at hd ⊢; rw [hd]; exact trivial
              | abort => rw [hx] at hd; dsimp only [Agrees] at hd ⊢; rw [hd]; exact trivial
              | stuck => rw [hx] at hd; dsimp only [Agrees] at hd ⊢; rw [hd]; exact trivial

/-! ## Clients -/

theorem hAccept_agree {h : HChild} {c : Child} (hr : Rel h c) : Rel (hAccept h) (cliAccept c) := by
  unfold hAccept cliAccept
  refine ⟨⟨hr.shows.netifs, hr.shows.queue, ?_, ?_, hr.shows.out, hr.shows.sent⟩, hr.mem, ?_, hr.bare⟩
  · show h.sessions ++ _ = c.sessions ++ _
    rw [hr.shows.sessions, hr.shows.nextId]
  · show h.nextId + 1 = c.nextId + 1
    rw [hr.shows.nextId]
  · show OInv (h.nextId :: h.objs) (h.queue.map (·.e.id) ++ (h.sessions ++ [({ sid := h.nextId } : Session)]).map (fun t => t.sid))
      (h.nextId + 1)
    refine oinv_perm (oinv_new hr.objs) ?_
    rw [List.map_append, ← List.append_assoc]
    exact (List.perm_append_singleton _ _).symm

theorem hSetLock_texts (hp : Heap) (q : List HEntry) (id : Nat) (f : Nat → Nat) :
    (hSetLock q id f).map (entryTexts hp) = setLock (q.map (entryTexts hp)) id f := by
  unfold hSetLock setLock
  rw [List.map_map, List.map_map]
  apply List.map_congr_left
  intro x _
  show entryTexts hp (if x.e.id = id then _ else x) = if x.e.id = id then _ else _
  split <;> rfl

theorem hSetLock_pointers (q : List HEntry) (id : Nat) (f : Nat → Nat) : pointers (hSetLock q id f) = pointers q := by
  unfold hSetLock pointers
  rw [List.flatMap_map]
  congr 1
  funext x
  split <;> rfl

theorem hSetLock_ids (q : List HEntry) (id : Nat) (f : Nat → Nat) : (hSetLock q id f).map (·.e.id) = q.map (·.e.id) := by
  unfold hSetLock
  rw [List.map_map]
  apply List.map_congr_left
  intro x _
  show (if x.e.id = id then ({ x with e := { x.e with lock := f x.e.lock % 256 } } : HEntry) else x).e.id = _
  split <;> rfl

theorem hSetLock_each {q : List HEntry} {id : Nat} {f : Nat → Nat} {x : HEntry} (hx : x ∈ hSetLock q id f) :
    ∃ y ∈ q, x.peer = y.peer ∧ x.e.peer = y.e.peer := by
  unfold hSetLock at hx
  obtain ⟨y, hy, rfl⟩ := List.mem_map.mp hx
  refine ⟨y, hy, ?_⟩
  split <;> exact ⟨rfl, rfl⟩

theorem rel_setLock {h : HChild} {c : Child} (hr : Rel h c) (id : Nat) (f : Nat → Nat) :
    Rel { h with queue := hSetLock h.queue id f } { c with queue := setLock c.queue id f } := by
  refine ⟨⟨hr.shows.netifs, ?_, hr.shows.sessions, hr.shows.nextId, hr.shows.out, hr.shows.sent⟩, ?_, ?_, ?_⟩
  · show (hSetLock h.queue id f).map (entryTexts h.heap) = setLock c.queue id f
    rw [hSetLock_texts, hr.shows.queue]
  · refine ⟨hr.mem.wf, fun x hx => ?_, ?_, fun p => ?_⟩
    · obtain ⟨y, hy, h1, -⟩ := hSetLock_each hx
      rw [h1]; exact hr.mem.len y hy
    · show (pointers (hSetLock h.queue id f)).Nodup
      rw [hSetLock_pointers]; exact hr.mem.nodup
    · show _ ↔ p ∈ pointers (hSetLock h.queue id f)
      rw [hSetLock_pointers]; exact hr.mem.exact p
  · show OInv h.objs ((hSetLock h.queue id f).map (·.e.id) ++ _) _
    rw [hSetLock_ids]; exact hr.objs
  · intro x hx
    obtain ⟨y, hy, -, h2⟩ := hSetLock_each hx
    rw [h2]; exact hr.bare y hy

theorem cliLoop_texts (hp : Heap) (q : List HEntry) (hb : ∀ x ∈ q, x.e.peer = {}) (ws : List WriteRes) :
    (cliLoop (q.map (·.e)) ws).1 = (cliLoop (q.map (entryTexts hp)) ws).1 ∧
      (cliLoop (q.map (·.e)) ws).2 = (cliLoop (q.map (entryTexts hp)) ws).2.map withoutPeer := by
  induction q generalizing ws with
  | nil => exact ⟨rfl, rfl⟩
  | cons x q ih =>
    cases ws with
    | nil => exact ⟨rfl, rfl⟩
    | cons w ws =>
      cases w with
      | ok =>
        obtain ⟨h1, h2⟩ := ih (fun y hy => hb y (List.mem_cons_of_mem _ hy)) ws
        refine ⟨h1, ?_⟩
        show x.e :: (cliLoop (q.map (·.e)) ws).2 = withoutPeer (entryTexts hp x) :: ((cliLoop (q.map (entryTexts hp)) ws).2.map withoutPeer)
        rw [h2]
        congr 1
        have := hb x List.mem_cons_self
        show x.e = { x.e with peer := {} }
        rw [← this]
      | again => exact ⟨rfl, rfl⟩
      | err => exact ⟨rfl, rfl⟩

theorem sids_split {l : List Session} {sid : Nat} {s : Session} (hf : l.find? (fun s => s.sid == sid) = some s)
    (hn : (l.map (·.sid)).Nodup) :
    (l.map (·.sid)).Perm (sid :: (l.filter (fun s => s.sid != sid)).map (·.sid)) := by
  induction l with
  | nil => simp at hf
  | cons x l ih =>
    rw [List.map_cons, List.nodup_cons] at hn
    rw [List.find?_cons] at hf
    by_cases hx : x.sid = sid
    · rw [List.filter_cons_of_neg (by simp [hx]), List.map_cons, hx]
      have : l.filter (fun s => s.sid != sid) = l := List.filter_eq_self.mpr (fun y hy => by
        simp only [bne_iff_ne, ne_eq]
        intro he
        exact hn.1 (List.mem_map.mpr ⟨y, hy, by rw [he, hx]⟩))
      rw [this]
    · rw [show (x.sid == sid) = false by simp [hx]] at hf
      rw [List.filter_cons_of_pos (by simp [hx]), List.map_cons, List.map_cons]
      exact ((ih hf hn.2).cons _).trans (List.Perm.swap _ _ _)

/-- The end of a session. -/
theorem rel_close {h : HChild} {c : Child} (hr : Rel h c) {sid : Nat} {s : Session}
    (hf : c.sessions.find? (fun s => s.sid == sid) = some s) :
    ∃ objs', objFree h.objs sid = .ok objs' ∧
      Rel { h with sessions := c.sessions.filter (fun s => s.sid != sid), objs := objs' }
        { c with sessions := c.sessions.filter (fun s => s.sid != sid) } := by
  have ho := hr.objs
  rw [hr.shows.sessions] at ho
  have hn := (ho.perm.nodup_iff.mp ho.nodup)
  rw [List.nodup_append] at hn
  have hp := sids_split hf hn.2.1
  obtain ⟨objs', h1, h2⟩ := objFree_spec (oinv_perm ho (((List.Perm.append_left (h.queue.map (·.e.id)) hp)).trans List.perm_middle))
  exact ⟨objs', h1, ⟨⟨hr.shows.netifs, hr.shows.queue, rfl, hr.shows.nextId, hr.shows.out, hr.shows.sent⟩, hr.mem, h2, hr.bare⟩⟩

theorem hWrite_agree (sid : Nat) (ws : Option (List WriteRes)) {h : HChild} {c : Child} (hr : Rel h c) :
    RAgree (hWrite sid ws h) (cliWrite sid ws c) := by
  unfold hWrite cliWrite
  rw [hr.shows.sessions]
  cases hf : c.sessions.find? (fun s => s.sid == sid) with
  | none => exact hr
  | some sess =>
    dsimp only
    cases ws with
    | none =>
      obtain ⟨objs', h1, h2⟩ := rel_close hr hf
      dsimp only
      rw [h1]
      exact h2
    | some ws =>
      dsimp only
      have fin : ∀ {h : HChild} {c : Child} {suf : List HEntry}, Rel h c →
          c.sessions.find? (fun s => s.sid == sid) = some sess → (∀ x ∈ suf, x.e.peer = {}) →
          RAgree
            (match (cliLoop (suf.map (·.e)) ws).1 with
              | .blocked d => .ok { h with queue := hSetLock h.queue d (fun n => n + 1), sessions := c.sessions.map (fun t => if t.sid = sid then { t with msg := some d } else t), sent := h.sent ++ (cliLoop (suf.map (·.e)) ws).2.map (fun e => (sid, e)) }
              | _ => (objFree h.objs sid).bind (fun objs => .ok { h with sessions := c.sessions.filter (fun s => s.sid != sid), sent := h.sent ++ (cliLoop (suf.map (·.e)) ws).2.map (fun e => (sid, e)), objs := objs }))
            (match (cliLoop (suf.map (entryTexts h.heap)) ws).1 with
              | .blocked d => .ok { c with queue := setLock c.queue d (fun n => n + 1), sessions := c.sessions.map (fun t => if t.sid = sid then { t with msg := some d } else t), sent := c.sent ++ (cliLoop (suf.map (entryTexts h.heap)) ws).2.map (fun e => (sid, e)) }
              | _ => .ok { c with sessions := c.sessions.filter (fun s => s.sid != sid), sent := c.sent ++ (cliLoop (suf.map (entryTexts h.heap)) ws).2.map (fun e => (sid, e)) }) := by
        intro h c suf hr hf hb
        obtain ⟨e1, e2⟩ := cliLoop_texts h.heap suf hb ws
        rw [e1, e2]
        generalize cliLoop (suf.map (entryTexts h.heap)) ws = r
        have hsent : h.sent ++ (r.2.map withoutPeer).map (fun e => (sid, e)) =
            (c.sent ++ r.2.map (fun e => (sid, e))).map (fun x => (x.1, withoutPeer x.2)) := by
          rw [hr.shows.sent, List.map_append, List.map_map, List.map_map]
          rfl
        rw [hsent]
        cases r.1 with
        | blocked d =>
          have h1 := rel_setLock hr d (fun n => n + 1)
          refine ⟨⟨h1.shows.netifs, h1.shows.queue, rfl, h1.shows.nextId, h1.shows.out, rfl⟩, h1.mem, ?_, h1.bare⟩
          have h2 := h1.objs
          have hs : (c.sessions.map (fun t => if t.sid = sid then { t with msg := some d } else t)).map (·.sid) =
              h.sessions.map (·.sid) := by
            rw [hr.shows.sessions, List.map_map]
            apply List.map_congr_left
            intro t _
            show (if t.sid = sid then ({ t with msg := some d } : Session) else t).sid = _
            split <;> rfl
          show OInv h.objs (_ ++ (c.sessions.map (fun t => if t.sid = sid then { t with msg := some d } else t)).map (·.sid)) _
          rw [hs]
          exact h2
        | done =>
          obtain ⟨objs', h1, h2⟩ := rel_close hr hf
          dsimp only
          rw [h1]
          exact ⟨⟨h2.shows.netifs, h2.shows.queue, rfl, h2.shows.nextId, h2.shows.out, rfl⟩, h2.mem, h2.objs, h2.bare⟩
        | failed =>
          obtain ⟨objs', h1, h2⟩ := rel_close hr hf
          dsimp only
          rw [h1]
          exact ⟨⟨h2.shows.netifs, h2.shows.queue, rfl, h2.shows.nextId, h2.shows.out, rfl⟩, h2.mem, h2.objs, h2.bare⟩
      unfold cliStart
      cases sess.msg with
      | none =>
        dsimp only
        rw [Res.bind_ok, Res.bind_ok]
        dsimp only
        have := fin (suf := h.queue) hr hf hr.bare
        rw [hr.shows.queue] at this
        exact this
      | some id =>
        dsimp only
        have h1 := rel_setLock hr id (fun n => n + 255)
        have hdw : (setLock c.queue id (fun n => n + 255)).dropWhile (fun e => e.id != id) =
            ((hSetLock h.queue id (fun n => n + 255)).dropWhile (fun x => x.e.id != id)).map (entryTexts h.heap) := by
          rw [← hr.shows.queue, ← hSetLock_texts, List.dropWhile_map]
          rfl
        rw [hdw]
        cases hd : (hSetLock h.queue id (fun n => n + 255)).dropWhile (fun x => x.e.id != id) with
        | nil => exact trivial
        | cons x r =>
          rw [List.map_cons]
          dsimp only
          rw [Res.bind_ok, Res.bind_ok]
          dsimp only
          have hb : ∀ y ∈ x :: r, y.e.peer = {} := fun y hy => by
            rw [← hd] at hy
            exact h1.bare y ((List.dropWhile_sublist _).subset hy)
          have := fin (suf := x :: r) h1 hf hb
          exact this

/-! ## Histories -/

theorem hStep_agree (o : Opts) (op : ChildOp) {h : HChild} {c : Child} (hr : Rel h c) :
    RAgree (hStep o h op) (childStep o c op) := by
  cases op with
  | recv now r => exact hQueue_agree o now r hr
  | expire now => exact hExpire_agree o now hr
  | fetch l => exact rel_netifs hr (fun _ => l)
  | accept => exact hAccept_agree hr
  | write sid ws => exact hWrite_agree sid ws hr

theorem hRun_agree (o : Opts) (ops : List ChildOp) {h : HChild} {c : Child} (hr : Rel h c) :
    RAgree (hRun o h ops) (childRun o c ops) := by
  induction ops generalizing h c with
  | nil => exact hr
  | cons op ops ih => exact ragree_bind (hStep_agree o op hr) (fun _ _ hr => ih hr)

theorem rel_start (l : List Netif) : Rel { netifs := l } { netifs := l } := by
  refine ⟨⟨rfl, rfl, rfl, rfl, rfl, rfl⟩, ⟨?_, ?_, ?_, ?_⟩, ⟨?_, ?_, ?_⟩, ?_⟩
  · exact ⟨List.nodup_nil, fun _ h => absurd h (by simp)⟩
  · intro x hx; exact absurd hx (by simp)
  · exact List.nodup_nil
  · intro p; exact ⟨fun h => absurd h (by simp [Heap.at]), fun h => absurd h (by simp [pointers])⟩
  · exact List.Perm.refl _
  · exact List.nodup_nil
  · intro i hi; exact absurd hi (by simp)
  · intro x hx; exact absurd hx (by simp)

/-- `child_free`. -/
theorem hFreeAll_spec (qs : List HEntry) (sids : List Nat) (next : Nat) (h : Heap) (objs : List Nat)
    (ht : TInv h qs) (ho : OInv objs (qs.map (·.e.id) ++ sids) next) :
    ∃ h' objs', hFreeAll qs h objs = .ok (h', objs') ∧ (∀ p, h'.at p = none) ∧ OInv objs' sids next := by
  induction qs generalizing h objs with
  | nil =>
    refine ⟨h, objs, rfl, fun p => ?_, ho⟩
    cases hp : h.at p with
    | none => rfl
    | some v =>
      have := (ht.exact p).mp (by rw [hp]; rfl)
      exact absurd this (by simp [pointers])
  | cons q qs ih =>
    obtain ⟨h1, hf, ht1, -⟩ := tinv_free ht
    obtain ⟨objs1, hof, ho1⟩ := objFree_spec ho
    obtain ⟨h', objs', h2, h3, h4⟩ := ih h1 objs1 ht1 ho1
    refine ⟨h', objs', ?_, h3, h4⟩
    unfold hFreeAll
    rw [hf, Res.bind_ok, hof, Res.bind_ok, h2]

end Ladvd
