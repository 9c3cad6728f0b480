import Verif.Lemmas.HeapChild
import Verif.Lemmas.Network
import Verif.Props.Alive
/-!
# C72: memory of the receiving process
-/

namespace Ladvd.Props

open Spec

theorem rel_run {o : Opts} {l : List Netif} {ops : List ChildOp} {st : HChild} (h : hRun o { netifs := l } ops = .ok st) :
    ∃ c, childRun o { netifs := l } ops = .ok c ∧ Rel st c := by
  have ha := hRun_agree o ops (rel_start l)
  rw [h] at ha
  cases hc : childRun o { netifs := l } ops with
  | ok c => rw [hc] at ha; exact ⟨c, rfl, ha⟩
  | _ => rw [hc] at ha; exact ha.elim

theorem rel_run_back {o : Opts} {l : List Netif} {ops : List ChildOp} {c : Child}
    (h : childRun o { netifs := l } ops = .ok c) : ∃ st, hRun o { netifs := l } ops = .ok st ∧ Rel st c := by
  have ha := hRun_agree o ops (rel_start l)
  rw [h] at ha
  cases hc : hRun o { netifs := l } ops with
  | ok st => rw [hc] at ha; exact ⟨st, rfl, ha⟩
  | _ => rw [hc] at ha; exact ha.elim

theorem rel_owned {st : HChild} {c : Child} (hr : Rel st c) : Owned st :=
  ⟨hr.mem.nodup, hr.mem.wf.nodup, fun p => heap_at_mem.symm.trans (hr.mem.exact p), hr.objs.perm, hr.objs.nodup⟩

/-! ## Nothing leaks, nothing dangles -/

/-- After every history each block that is allocated belongs to one pointer of one entry of the table, every pointer refers to an
allocated block of its own, and the entries and sessions that are allocated are the ones in use. -/
theorem C72_exact (o : Opts) (l : List Netif) (ops : List ChildOp) (st : HChild)
    (h : hRun o { netifs := l } ops = .ok st) : Owned st := by
  obtain ⟨c, -, hr⟩ := rel_run h
  exact rel_owned hr

/-- Hence the memory in use is bounded by the size of the table and the number of clients. -/
theorem C72_bound (o : Opts) (l : List Netif) (ops : List ChildOp) (st : HChild)
    (h : hRun o { netifs := l } ops = .ok st) :
    st.heap.live.length ≤ 8 * st.queue.length ∧ st.objs.length = st.queue.length + st.sessions.length := by
  obtain ⟨c, -, hr⟩ := rel_run h
  have ho := rel_owned hr
  constructor
  · have hp : (allocated st.heap).Perm (pointers st.queue) := (List.perm_ext_iff_of_nodup ho.distinct ho.once).mpr ho.exact
    have hl := hp.length_eq
    have h1 : (allocated st.heap).length = st.heap.live.length := by unfold allocated; rw [List.length_map]
    have h2 : ∀ q : List HEntry, (∀ x ∈ q, x.peer.length = 8) → (pointers q).length ≤ 8 * q.length := by
      intro q hq
      induction q with
      | nil => exact Nat.le_refl _
      | cons x q ih =>
        rw [pointers_cons, List.length_append, List.length_cons]
        have a := ih (fun y hy => hq y (List.mem_cons_of_mem _ hy))
        have b := List.length_filterMap_le id x.peer
        rw [hq x List.mem_cons_self] at b
        omega
    have := h2 st.queue hr.mem.len
    omega
  · have := ho.objects.length_eq
    rwa [List.length_append, List.length_map, List.length_map] at this

/-- When the process ends, releasing the table releases all texts, each exactly once, and leaves the sessions only. -/
theorem C72_exit (o : Opts) (l : List Netif) (ops : List ChildOp) (st : HChild)
    (h : hRun o { netifs := l } ops = .ok st) :
    ∃ heap objs, hFreeAll st.queue st.heap st.objs = .ok (heap, objs) ∧ allocated heap = [] ∧
      objs.Perm (st.sessions.map (·.sid)) := by
  obtain ⟨c, -, hr⟩ := rel_run h
  obtain ⟨heap, objs, h1, h2, h3⟩ := hFreeAll_spec _ _ _ _ _ hr.mem hr.objs
  refine ⟨heap, objs, h1, ?_, h3.perm⟩
  refine List.eq_nil_iff_forall_not_mem.mpr (fun p hp => ?_)
  have := heap_at_mem.mpr hp
  rw [h2] at this
  exact absurd this (by simp)

/-! ## The memory shows what was received -/

/-- A history on the memory level succeeds exactly if the one on values does, and then the texts that the table refers to
are the values: no text is changed after it has been stored. -/
theorem C72_shows (o : Opts) (l : List Netif) (ops : List ChildOp) :
    (∀ st, hRun o { netifs := l } ops = .ok st → ∃ c, childRun o { netifs := l } ops = .ok c ∧ Shows st c) ∧
    (∀ c, childRun o { netifs := l } ops = .ok c → ∃ st, hRun o { netifs := l } ops = .ok st ∧ Shows st c) := by
  constructor
  · intro st h
    obtain ⟨c, hc, hr⟩ := rel_run h
    exact ⟨c, hc, hr.shows⟩
  · intro c h
    obtain ⟨st, hs, hr⟩ := rel_run_back h
    exact ⟨st, hs, hr.shows⟩

/-! ## Invalid accesses -/

theorem updateNetifs_defined (o : Opts) (is : List Nat) (st : Child) : updateNetifs o is st ≠ .oob := by
  induction is generalizing st with
  | nil => intro h; cases h
  | cons i is ih =>
    rw [updateNetifs_cons]
    cases netifByIndex st.netifs i with
    | none => exact ih st
    | some subif =>
      dsimp only
      split
      · exact ih st
      · have hp : ∀ (l : List Netif) (n : Netif) q, netifProtos l n q ≠ .oob := by
          intro l n q h
          unfold netifProtos at h
          have hl : ∀ (fuel : Nat) cur, subifLoop l n fuel cur ≠ .oob := by
            intro fuel
            induction fuel with
            | zero => intro cur h; cases h
            | succ k ihk =>
              intro cur h
              unfold subifLoop at h
              cases hs : subifIter l cur n with
              | none => rw [hs] at h; cases h
              | some s =>
                rw [hs] at h
                dsimp only at h
                have := ihk (some s)
                cases hx : subifLoop l n k (some s) with
                | oob => exact this hx
                | _ => rw [hx] at h; cases h
          cases hx : ports l n with
          | oob => exact hl _ _ hx
          | _ => rw [hx] at h; cases h
        cases o.has OPT_AUTO with
        | false => exact ih _
        | true =>
          rw [if_pos rfl]
          have := hp st.netifs (parentOf st.netifs subif) st.queue
          cases hx : netifProtos st.netifs (parentOf st.netifs subif) st.queue with
          | oob => exact absurd hx this
          | ok p => exact ih _
          | _ => intro h; cases h

theorem childQueue_defined {o : Opts} {now : Option Int} {r : RawMsg} (hc : Captured (.recv now r)) (st : Child) :
    childQueue o now r st ≠ .oob := by
  obtain ⟨index, wire, ms, m, hf, h, hm, rfl⟩ := hc
  have hd := C39_no_crash false index wire hf ms h m hm (List.replicate (ETHER_MAX_LEN - m.frame.length) 0 ++ [1, 0])
    (by rw [List.length_append]; simp) { proto := m.proto.num }
  rw [← List.append_assoc] at hd
  unfold childQueue
  split
  · intro h; cases h
  · cases now with
    | none => intro h; cases h
    | some now =>
      dsimp only
      rw [show Proto.ofNum (rawOf m).proto = some m.proto by unfold rawOf; cases m.proto <;> rfl]
      dsimp only
      split
      · intro h; cases h
      · cases netifByIndex st.netifs (rawOf m).index with
        | none => intro h; cases h
        | some subif =>
          dsimp only
          split
          · intro h; cases h
          · have hd : m.proto.decode false ((rawOf m).msg ++ [1, 0]) (rawOf m).len.toNat { proto := (rawOf m).proto } = .fail ∨
                ∃ r, m.proto.decode false ((rawOf m).msg ++ [1, 0]) (rawOf m).len.toNat { proto := (rawOf m).proto } = .ok r := hd
            rcases hd with hd | ⟨⟨x, n⟩, hd⟩
            · rw [hd]; intro h; cases h
            · rw [hd]
              dsimp only
              split
              · intro h; cases h
              · unfold queueStore
                dsimp only
                split
                · exact updateNetifs_defined _ _ _
                · split
                  · intro h; cases h
                  · split
                    · intro h; cases h
                    · intro h; cases h

/-- The only invalid access (use of freed memory, double `free`, access outside of an object) there can be is a client session that
continues at an entry that is no longer in the table. -/
theorem C72_dangling (o : Opts) (l : List Netif) (ops : List ChildOp)
    (hcap : ∀ now r, ChildOp.recv now r ∈ ops → Captured (.recv now r)) (h : hRun o { netifs := l } ops = .oob) :
    ∃ pre sid ws post st, ops = pre ++ .write sid (some ws) :: post ∧ hRun o { netifs := l } pre = .ok st ∧
      ∃ s ∈ st.sessions, s.sid = sid ∧ ∃ id, s.msg = some id ∧ id ∉ st.queue.map (·.e.id) := by
  have key : ∀ (ops : List ChildOp) (h0 : HChild) (c0 : Child), Rel h0 c0 →
      (∀ now r, ChildOp.recv now r ∈ ops → Captured (.recv now r)) → hRun o h0 ops = .oob →
      ∃ pre sid ws post st, ops = pre ++ .write sid (some ws) :: post ∧ hRun o h0 pre = .ok st ∧
        ∃ s ∈ st.sessions, s.sid = sid ∧ ∃ id, s.msg = some id ∧ id ∉ st.queue.map (·.e.id) := by
    intro ops
    induction ops with
    | nil => intro h0 c0 _ _ h; cases h
    | cons op ops ih =>
      intro h0 c0 hr hcap h
      have ha := hStep_agree o op hr
      cases hs : hStep o h0 op with
      | ok h1 =>
        rw [hs] at ha
        cases hc : childStep o c0 op with
        | ok c1 =>
          rw [hc] at ha
          have h' : hRun o h1 ops = .oob := by rw [hRun, hs] at h; exact h
          obtain ⟨pre, sid, ws, post, st, e1, e2, e3⟩ := ih h1 c1 ha (fun now r hm => hcap now r (List.mem_cons_of_mem _ hm)) h'
          refine ⟨op :: pre, sid, ws, post, st, by rw [e1]; rfl, ?_, e3⟩
          rw [hRun, hs]
          exact e2
        | _ => rw [hc] at ha; exact ha.elim
      | oob =>
        rw [hs] at ha
        have hc : childStep o c0 op = .oob := by
          cases hc : childStep o c0 op with
          | oob => rfl
          | _ => rw [hc] at ha; exact ha.elim
        cases op with
        | recv now r => exact absurd hc (childQueue_defined (hcap now r List.mem_cons_self) c0)
        | expire now => exact absurd hc (updateNetifs_defined _ _ _)
        | fetch l => cases hc
        | accept => cases hc
        | write sid ws =>
          rcases write_cases sid ws c0 with ⟨st', hw⟩ | ⟨-, hsome, s, hsm, hsid, id, hmsg, hno⟩
          · have hc : cliWrite sid ws c0 = .oob := hc
            rw [hw] at hc
            cases hc
          · obtain ⟨ws', rfl⟩ := Option.isSome_iff_exists.mp hsome
            refine ⟨[], sid, ws', ops, h0, rfl, rfl, s, by rw [hr.shows.sessions]; exact hsm, hsid, id, hmsg, ?_⟩
            intro hm
            obtain ⟨x, hx, hxi⟩ := List.mem_map.mp hm
            refine hno (entryTexts h0.heap x) ?_ hxi
            rw [← hr.shows.queue]
            exact List.mem_map.mpr ⟨x, hx, rfl⟩
      | fail => rw [hRun, hs] at h; cases h
      | abort => rw [hRun, hs] at h; cases h
      | stuck => rw [hRun, hs] at h; cases h
  exact key ops _ _ (rel_start l) hcap h

theorem calmRun_prefix {o : Opts} {pre post : List ChildOp} {st : Child} (h : CalmRun o st (pre ++ post)) : CalmRun o st pre := by
  induction pre generalizing st with
  | nil => trivial
  | cons op pre ih => exact ⟨h.1, fun st' hs => ih (h.2 st' hs)⟩

/-- Without such a session there is no invalid access at all.  The full claim has no calmness hypothesis; it is false
(`C72_use_after_free`). -/
theorem C72_defined_partial (o : Opts) (l : List Netif) (ops : List ChildOp)
    (hcap : ∀ now r, ChildOp.recv now r ∈ ops → Captured (.recv now r)) (hc : CalmRun o { netifs := l } ops) :
    hRun o { netifs := l } ops ≠ .oob := by
  intro h
  obtain ⟨pre, sid, ws, post, st, rfl, hp, s, hs, hsid, id, hm, hno⟩ := C72_dangling o l ops hcap h
  obtain ⟨c, hcr, hr⟩ := rel_run hp
  obtain ⟨-, h2, -⟩ := C19_partial o l pre c (calmRun_prefix hc) hcr
  obtain ⟨e, he, hei, -⟩ := h2 s (by rw [← hr.shows.sessions]; exact hs) id hm
  rw [← hr.shows.queue] at he
  obtain ⟨x, hx, rfl⟩ := List.mem_map.mp he
  exact hno (List.mem_map.mpr ⟨x, hx, hei⟩)

/-- A client is reading, its entry is received again, which resets the lock count, and expires. -/
theorem C72_use_after_free : hRun 0 { netifs := sampleState.netifs }
    [.recv (some 100) (sampleMsg 1), .accept, .write 1 (some [.again]), .recv (some 101) (sampleMsg 1), .expire 1000,
     .write 1 (some [.ok])] = .oob := by decide +kernel

/-! ## The daemon -/

/-- Whatever the daemon does, the table it has in the end is the one shown by a memory in which nothing has leaked. -/
theorem C72_daemon (c : Conf) (d0 d : Daemon) (h0 : d0.child = {}) (es : List Event) (h : daemonRun c es d0 = .ok d) :
    ∃ ops st, hRun c.opts {} ops = .ok st ∧ Owned st ∧ Shows st d.child ∧ ∀ op ∈ ops, ∃ e ∈ es, OpOf e op := by
  obtain ⟨ops, h1, h2⟩ := run_ops h
  rw [h0] at h1
  obtain ⟨st, h3, h4⟩ := rel_run_back (l := []) h1
  exact ⟨ops, st, h3, rel_owned h4, h4.shows, h2⟩

/-! ## Examples -/

/-- A history with a frame that is replaced, one that expires, one with an error and an open session: the memory afterwards. -/
def heapSample : List ChildOp :=
  [.recv (some 100) (sampleCdp 1 90), .recv (some 100) (sampleCdp 1 120), .accept, .recv (some 101) (sampleMsg 2),
   .recv (some 101) { sampleCdp 3 90 with len := 30, size := 70 }, .write 2 (some [.again]), .expire 1000]

example : ∃ st, hRun (1 <<< OPT_IFDESCR) { netifs := sampleState.netifs } heapSample = .ok st ∧ st.queue.length = 1 ∧
    st.objs = [2, 0] ∧ st.heap.live = [(6, List.replicate 25 0x65), (5, lit "sw1")] ∧ st.heap.next = 16 ∧ st.out.length = 4 := by
  refine ⟨(match hRun (1 <<< OPT_IFDESCR) { netifs := sampleState.netifs } heapSample with | .ok st => st | _ => {}), ?_⟩
  decide +kernel

/-- A history of captured frames with a client that stops and continues. -/
def calmSample : List ChildOp :=
  [.recv (some 100) (rawOf ⟨3, .ndp, ndpFrame 77⟩), .recv (some 101) (rawOf ⟨3, .ndp, ndpFrame 78⟩), .accept,
   .write 2 (some [.again]), .expire 5000, .write 2 (some [.ok, .ok]), .expire 5001]

example : (∀ now r, ChildOp.recv now r ∈ calmSample → Captured (.recv now r)) ∧
    CalmRun 0 { netifs := sampleState.netifs } calmSample ∧
    ∃ st, hRun 0 { netifs := sampleState.netifs } calmSample = .ok st ∧ st.sent.length = 1 ∧ st.objs = [] ∧ st.heap.live = [] := by
  refine ⟨?_, ?_, (match hRun 0 { netifs := sampleState.netifs } calmSample with | .ok st => st | _ => {}), by decide +kernel⟩
  · intro now r hm
    simp only [calmSample, List.mem_cons, List.not_mem_nil, or_false, ChildOp.recv.injEq, reduceCtorEq] at hm
    rcases hm with ⟨rfl, rfl⟩ | ⟨rfl, rfl⟩
    · exact ndp_captured 100 77 (Or.inl rfl)
    · exact ndp_captured 101 78 (Or.inr rfl)
  · refine ⟨by simp [Calm], fun st1 h1 => ⟨?_, fun st2 h2 => ⟨?_, fun st3 h3 => ⟨trivial, fun st4 h4 => ⟨trivial,
      fun st5 h5 => ⟨trivial, fun st6 h6 => ⟨trivial, fun _ _ => trivial⟩⟩⟩⟩⟩⟩⟩
    · simp [Calm, recv_sessions h1]
    · simp [Calm, recv_sessions h2, recv_sessions h1]

end Ladvd.Props
