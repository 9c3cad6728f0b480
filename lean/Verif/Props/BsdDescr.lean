import Verif.Lemmas.BsdDescr
import Verif.Props.Alias
/-!
# C85: on FreeBSD, with `-z` the kernel's description of an interface follows its neighbours
-/

namespace Ladvd.Props

open Spec

/-- What becomes of a datagram on the request socket on FreeBSD: if it is not a request the process ends; a request for an interface that does not exist is answered
with an empty reply; a request to open or close a socket changes no description
and ends the process only if the socket cannot be made; a request to set a description of up to 64 bytes sets the one of the named interface to these bytes,
and is answered with them or, on failure, with nothing; any other request ends the process. -/
theorem C85_request (c : Conf) (env : BPEnv) (hn : ∀ i n, env.base.ifName i = some n → n.length ≤ 15) (s : Parent) (dg : Bytes) :
    ((∀ op i payload, ¬ Asks (dg.take 544) op i payload) ∧ bsdParentReq c env s dg = .abort) ∨
    ∃ op i payload, Asks (dg.take 544) op i payload ∧
      ((env.base.ifName i = none ∧ ∃ b, bsdParentReq c env s dg = .ok (s, b, []) ∧ Asks b op i []) ∨
       ∃ name, env.base.ifName i = some name ∧
        ((op = 0 ∨ op = 1) ∧ (op = 0 ∧ rfdByIndex s i = none ∧ c.opts.has OPT_DEBUG = false ∧ env.base.sock name = .fatal ∧ bsdParentReq c env s dg = .abort ∨
           ∃ s' b, bsdParentReq c env s dg = .ok (s', b, []) ∧ Asks b op i payload) ∨
         op = 2 ∧ payload.length ≤ 64 ∧ (∃ b, bsdParentReq c env s dg = .ok (s, b, [(name, payload)]) ∧
            Asks b op i (if env.setDescr name payload then payload else [])) ∨
         (op > 2 ∨ op = 2 ∧ payload.length > 64) ∧ bsdParentReq c env s dg = .abort)) := by
  have hdef : bsdParentReq c env s dg =
      if (dg.take 544).length < REQ_MIN ∨ (dg.take 544).length ≠ reqLen (reqOf (dg.take 544 ++ List.replicate (544 - (dg.take 544).length) 0)).len then .abort
      else match env.base.ifName (reqOf (dg.take 544 ++ List.replicate (544 - (dg.take 544).length) 0)).index with
        | none => (reply { reqOf (dg.take 544 ++ List.replicate (544 - (dg.take 544).length) 0) with len := 0 }).bind fun b => .ok (s, b, [])
        | some name => (wr (reqOf (dg.take 544 ++ List.replicate (544 - (dg.take 544).length) 0)).name 0 (name ++ [0])).bind fun nm =>
          if !bsdParentCheck (reqOf (dg.take 544 ++ List.replicate (544 - (dg.take 544).length) 0)) then .abort
          else (bsdParentOp c env (reqOf (dg.take 544 ++ List.replicate (544 - (dg.take 544).length) 0)) name s).bind fun x =>
            (reply { reqOf (dg.take 544 ++ List.replicate (544 - (dg.take 544).length) 0) with name := nm, len := x.2.2.1, buf := x.2.1 }).bind fun b =>
              .ok (x.1, b, x.2.2.2) := by
    unfold bsdParentReq
    rw [recvInto_eq]
    rfl
  have hl : (dg.take 544).length ≤ 544 := List.length_take_le _ _
  rw [hdef]
  generalize dg.take 544 = d at hl
  generalize hz : List.replicate (544 - d.length) (0 : UInt8) = z
  by_cases hc : d.length < REQ_MIN ∨ d.length ≠ reqLen (reqOf (d ++ z)).len
  · left
    refine ⟨?_, by rw [if_pos hc]⟩
    intro op i payload ha
    obtain ⟨pad, name, -, -, h1, h2⟩ := reqOf_asks ha z
    have hp : payload.length ≤ 512 := by omega
    rw [h2] at hc
    dsimp only at hc
    rw [reqLen_small hp] at hc
    unfold REQ_MIN at hc
    omega
  · right
    rw [if_neg hc]
    obtain ⟨op, i, payload, ha⟩ := asks_of_check hl z (by unfold REQ_MIN at hc; omega) (by omega)
    obtain ⟨pad, name16, hpad, hname, h1, h2⟩ := reqOf_asks ha z
    have hp : payload.length ≤ 512 := by omega
    have hi : i < 2 ^ 32 := by obtain ⟨_, _, _, _, _, h, _⟩ := ha; exact h
    have ho : op < 256 := by obtain ⟨_, _, _, _, h, _⟩ := ha; exact h
    have hon : (UInt8.ofNat op).toNat = op := by rw [UInt8.toNat_ofNat']; omega
    have heq : ∀ k : Nat, k < 256 → (UInt8.ofNat op = UInt8.ofNat k ↔ op = k) := by
      intro k hk
      constructor
      · intro h
        have := congrArg UInt8.toNat h
        rw [hon, UInt8.toNat_ofNat'] at this
        omega
      · intro h; rw [h]
    have hz' : z = List.replicate (512 - payload.length) 0 := by rw [← hz]; congr 1; omega
    refine ⟨op, i, payload, ha, ?_⟩
    rw [h2, hz']
    dsimp only
    have hbuf : (payload ++ List.replicate (512 - payload.length) (0 : UInt8)).length = 512 := by simp; omega
    match he : env.base.ifName i with
    | none =>
      left
      obtain ⟨b, e, hb⟩ := reply_asks (op := UInt8.ofNat op) hpad hname hi hbuf (len := 0) (by omega)
      refine ⟨rfl, b, by dsimp only; rw [e]; rfl, ?_⟩
      rw [hon, List.take_zero] at hb
      exact hb
    | some name =>
      right
      refine ⟨name, rfl, ?_⟩
      have hnl := hn i name he
      obtain ⟨nm, e, -, hnm⟩ := wr_some (m := name16) (p := 0) (v := name ++ [0]) (by simp only [List.length_append, List.length_cons, List.length_nil]; omega)
      dsimp only
      rw [e, Res.bind_ok]
      have same : ∀ s' : Parent, ∃ b, (reply ⟨UInt8.ofNat op, pad, i, nm, payload.length, payload ++ List.replicate (512 - payload.length) 0⟩).bind (fun b => Res.ok (s', b, ([] : List DescrCall))) = .ok (s', b, []) ∧ Asks b op i payload := by
        intro s'
        obtain ⟨b, e, hb⟩ := reply_asks (op := UInt8.ofNat op) (name := nm) hpad (by omega) hi hbuf hp
        rw [hon, List.take_left' rfl] at hb
        exact ⟨b, by rw [e]; rfl, hb⟩
      unfold bsdParentCheck bsdParentOp
      dsimp only
      have hlt : (UInt8.ofNat op < 9) ↔ op < 9 := by
        rw [UInt8.lt_iff_toNat_lt, hon]; rfl
      rw [show decide (payload.length ≤ 1518) = true from decide_eq_true (by omega), Bool.true_and]
      by_cases h0 : op = 0
      · left
        subst h0
        refine ⟨Or.inl rfl, ?_⟩
        rw [show (!(decide (UInt8.ofNat 0 < 9) && (if UInt8.ofNat 0 = 0 then true else if UInt8.ofNat 0 = 1 then true else
          if UInt8.ofNat 0 = 2 then decide (payload.length ≤ 64) else false))) = false from by rfl, if_neg (by decide), if_pos (by rfl)]
        cases hr : rfdByIndex s i with
        | some r =>
          obtain ⟨b, hb⟩ := same s
          exact Or.inr ⟨s, b, hb⟩
        | none =>
          dsimp only
          rw [parentOpen_eq]
          by_cases hf : c.opts.has OPT_DEBUG = false ∧ env.base.sock name = .fatal
          · rw [if_pos hf]
            exact Or.inl ⟨rfl, rfl, hf.1, hf.2, rfl⟩
          · rw [if_neg hf]
            right
            split
            · obtain ⟨b, hb⟩ := same s
              exact ⟨s, b, hb⟩
            · obtain ⟨b, hb⟩ := same ⟨s.rawfds ++ [newRfd c env.base i name], s.fds ++ [i], s.acts ++ openActs c i name⟩
              exact ⟨_, b, hb⟩
      · have k0 : ¬ UInt8.ofNat op = 0 := fun h => h0 ((heq 0 (by omega)).mp h)
        by_cases h1' : op = 1
        · left
          subst h1'
          refine ⟨Or.inr rfl, ?_⟩
          rw [show (!(decide (UInt8.ofNat 1 < 9) && (if UInt8.ofNat 1 = 0 then true else if UInt8.ofNat 1 = 1 then true else
            if UInt8.ofNat 1 = 2 then decide (payload.length ≤ 64) else false))) = false from by rfl, if_neg (by decide), if_neg (by decide), if_pos (by rfl)]
          cases hr : rfdByIndex s i with
          | some r =>
            obtain ⟨b, hb⟩ := same (parentClose c env.base r s)
            exact Or.inr ⟨_, b, hb⟩
          | none =>
            obtain ⟨b, hb⟩ := same s
            exact Or.inr ⟨s, b, hb⟩
        · have k1 : ¬ UInt8.ofNat op = 1 := fun h => h1' ((heq 1 (by omega)).mp h)
          right
          rw [if_neg k0, if_neg k1, if_neg k0, if_neg k1]
          by_cases h2' : op = 2
          · have k2 : UInt8.ofNat op = 2 := (heq 2 (by omega)).mpr h2'
            rw [if_pos k2, if_pos k2, show decide (UInt8.ofNat op < 9) = true from decide_eq_true (hlt.mpr (by omega)), Bool.true_and]
            by_cases hlen : payload.length ≤ 64
            · left
              refine ⟨h2', hlen, ?_⟩
              rw [show decide (payload.length ≤ 64) = true from decide_eq_true hlen]
              rw [if_neg (by decide)]
              unfold bsdParentDescr
              simp only [Res.bind_eq, Res.pure_eq]
              obtain ⟨buf', eb, vb, lb⟩ := wr_some (m := payload ++ List.replicate (512 - payload.length) 0) (p := 64) (v := [(0 : UInt8)])
                (by rw [hbuf]; decide)
              have htk : buf'.take payload.length = payload := by
                generalize hm : payload ++ List.replicate (512 - payload.length) (0 : UInt8) = m at vb hbuf
                have h1 : payload.length ≤ (m.take 64).length := by rw [List.length_take, hbuf]; omega
                rw [vb, List.append_assoc, List.take_append_of_le_length h1, List.take_take, Nat.min_eq_left hlen, ← hm, List.take_left' rfl]
              rw [eb]
              simp only [Res.bind_ok]
              rw [htk, List.take_of_length_le hnl]
              have hg' : (if env.setDescr name payload = true then payload.length else 0) ≤ 512 := by split <;> omega
              obtain ⟨b, e, hb⟩ := reply_asks (op := UInt8.ofNat op) (pad := pad) (name := nm) (i := i)
                (len := if env.setDescr name payload = true then payload.length else 0) (buf := buf') hpad (by omega) hi (by omega) hg'
              refine ⟨b, by rw [e]; rfl, ?_⟩
              rw [hon] at hb
              split at hb
              · next hset => rw [htk] at hb; rw [if_pos hset]; exact hb
              · next hset => rw [List.take_zero] at hb; rw [if_neg hset]; exact hb
            · right
              refine ⟨Or.inr ⟨h2', by omega⟩, ?_⟩
              rw [show decide (payload.length ≤ 64) = false from decide_eq_false hlen, if_pos (by decide)]
          · right
            have k2 : ¬ UInt8.ofNat op = 2 := fun h => h2' ((heq 2 (by omega)).mp h)
            refine ⟨Or.inl (by omega), ?_⟩
            rw [if_neg k2, Bool.and_false, if_pos (by decide)]

/-- The description that befits interface `i`, cut to what a description can hold. -/
def bTold (c : Conf) (s : BDescribed) (i : Nat) : Bytes := (description (c.opts.has OPT_USEDESCR) s.child.queue i).take 63

/-- No neighbour on the interface uses the all-zero address, and there are fewer than 65536 (see C32). -/
def BOrdinary (s : BDescribed) (i : Nat) : Prop :=
  [0, 0, 0, 0, 0, 0] ∉ stations s.child.queue i ∧ (stations s.child.queue i).length < 65536

instance (s : BDescribed) (i : Nat) : Decidable (BOrdinary s i) := by unfold BOrdinary; infer_instance

theorem bTold_eq {c : Conf} {ifName : Nat → Option Bytes} {s0 s : BDescribed} {ops : List BOp} (h : BLives c ifName s0 ops s) {i : Nat}
    (ho : BOrdinary s i) : descrText c.opts i s.child.queue = bTold c s i := by
  obtain ⟨cops, hr, -⟩ := blives_child h
  exact C32_text_partial c.opts [] cops _ hr i ho.1 ho.2

/-- The privileged process serves whatever is asked: an operation that the daemon handles has an outcome here. -/
theorem C85_served (c : Conf) (ifName : Nat → Option Bytes) (s0 s1 : BDescribed) (ops : List BOp) (hl : BLives c ifName s0 ops s1) (op : ChildOp)
    (hok : BOpOk ifName (.child op)) (ch : Child) (hd : childStep c.opts s1.child (withDescrs s1.descr op) = .ok ch) :
    ∃ s, BLives c ifName s0 (ops ++ [.child op]) s ∧ s.child = ch := by
  -- the state of the child alone determines names and interfaces
  have hg : BGood ifName ch.netifs := by
    cases op with
    | fetch l =>
      injection hd with hd
      rw [← hd]
      obtain ⟨k1, k2⟩ := hok
      refine ⟨?_, ?_⟩
      · dsimp only
        rw [List.map_map]
        exact k1
      · intro n hn
        obtain ⟨y, hy, rfl⟩ := List.mem_map.mp hn
        exact k2 y hy
    | recv now r => exact bgood_bare (child_bare (by nofun) hd) hl.good
    | expire now => exact bgood_bare (child_bare (by nofun) hd) hl.good
    | accept => exact bgood_bare (child_bare (by nofun) hd) hl.good
    | write sid ws => exact bgood_bare (child_bare (by nofun) hd) hl.good
  have hq : ∀ x ∈ ch.queue, PeerSafe x.peer := by
    obtain ⟨cops, hr, hf⟩ := blives_child hl
    have hr' : childRun c.opts {} (cops ++ [withDescrs s1.descr op]) = .ok ch := by
      rw [childRun_append, hr, Res.bind_ok, childRun, hd]
      rfl
    have := (entries_run (P := Stored) (fun e i l h => ⟨⟨h.dec.msg, h.dec.len, h.dec.dec⟩, h.min⟩) (by
      intro st t r subif m hm ht
      have hcap : Captured (.recv (some t) r) := by
        rcases List.mem_append.mp hm with hm | hm
        · obtain ⟨op, ho, y, d, rfl, hy⟩ := hf _ hm
          have hy := withDescrs_recv hy
          subst hy
          exact (hl.each _ ho).1
        · have hy := withDescrs_recv (List.mem_singleton.mp hm)
          subst hy
          exact hok.1
      obtain ⟨h1, h2⟩ := captured_size hcap
      exact ⟨taken_decodes h1 (by omega) ht, by show 60 ≤ r.len.toNat; omega⟩) (by intro e he; cases he) (by intro e he; cases he) hr').1
    exact fun x hx => stored_safe (this x hx)
  obtain ⟨R, d', hst, -⟩ := bdescribed_core hl.names hg hq hok hd
  refine ⟨⟨ch, d'⟩, ⟨hl.names, hl.start, ?_, ?_⟩, rfl⟩
  · intro x hx
    rcases List.mem_append.mp hx with hx | hx
    · exact hl.each x hx
    · rw [List.mem_singleton.mp hx]; exact hok
  · rw [bDescribedRun_append, hl.run, Res.bind_ok, bDescribedRun, hst, Res.bind_ok]
    rfl

/-- An operation of a history, as `bdescribed_core` describes it. -/
theorem blives_step {c : Conf} {ifName : Nat → Option Bytes} {s0 s1 s : BDescribed} {ops : List BOp} {op : ChildOp}
    (hl : BLives c ifName s0 (ops ++ [.child op]) s) (h1 : BLives c ifName s0 ops s1) :
    ∃ R, Asked c.opts s.child.queue s.child.netifs (fun i => BHears s1 s (.child op) i ∨ TextChanges c.opts s1.child.queue s.child.queue i) R ∧
      (∀ n, (∀ r ∈ R, ifName r.1 ≠ some n) → s.descr n = s1.descr n) ∧
      ∀ i n, ifName i = some n → s.descr n = if (i, descrText c.opts i s.child.queue) ∈ R
        then (s1.descr n).map (fun _ => some (descrText c.opts i s.child.queue)) else s1.descr n := by
  obtain ⟨s1', h1', hok, hst⟩ := hl.before
  have : s1' = s1 := blives_unique h1' h1
  subst this
  obtain ⟨hch, -⟩ := bDescribedStep_ok hst
  obtain ⟨R, d', hst', h⟩ := bdescribed_core hl.names hl.good hl.safe hok hch
  rw [hst] at hst'
  injection hst' with hst'
  rw [hst']
  exact ⟨R, h⟩

/-- What an operation of the daemon does to the description of an interface that it knows: if the description that befits the interface changes, or a frame was received on
it, that description is set unless it is the stored one; if neither is the case, the description is kept or replaced by the befitting one. -/
theorem C85_exact (c : Conf) (ifName : Nat → Option Bytes) (s0 s1 s : BDescribed) (ops : List BOp) (op : ChildOp)
    (hl : BLives c ifName s0 (ops ++ [.child op]) s) (h1 : BLives c ifName s0 ops s1) (hz : c.opts.testBit 11 = true) (n : Netif) (hn : n ∈ s.child.netifs)
    (old : Option Bytes) (ha : s1.descr n.name = some old) (ho1 : BOrdinary s1 n.index) (ho : BOrdinary s n.index) :
    let new := bTold c s n.index
    (bTold c s1 n.index ≠ new ∨ BHears s1 s (.child op) n.index → s.descr n.name = some (if new = n.description then old else some new)) ∧
    (s.descr n.name = some old ∨ s.descr n.name = some (some new) ∧ new ≠ n.description) := by
  intro new
  obtain ⟨R, hask, -, hal⟩ := blives_step hl h1
  have hbi := byIndex_of_mem hl.good.nodup hn
  have hal := hal n.index n.name (hl.good.each n hn).2
  have hnew : descrText c.opts n.index s.child.queue = new := bTold_eq hl ho
  rw [hnew, ha, Option.map_some] at hal
  have hin : (n.index, new) ∈ R → new ≠ n.description := by
    intro hm
    obtain ⟨n', hn', -, hne⟩ := hask.only _ hm
    rw [hbi] at hn'
    cases hn'
    exact hne
  constructor
  · intro hcause
    rw [hal]
    by_cases heq : new = n.description
    · rw [if_pos heq, if_neg (fun hm => hin hm heq)]
    · rw [if_neg heq, if_pos]
      have := hask.all hz n.index n hbi ?_ (by rw [hnew]; exact heq)
      · rwa [hnew] at this
      · rcases hcause with hcause | hcause
        · right
          unfold TextChanges
          rw [hnew, bTold_eq h1 ho1]
          exact fun h => hcause h.symm
        · exact Or.inl hcause
  · rw [hal]
    by_cases hm : (n.index, new) ∈ R
    · rw [if_pos hm]; exact Or.inr ⟨rfl, hin hm⟩
    · rw [if_neg hm]; exact Or.inl rfl

/-- Neither a refresh nor someone else's change of the description of `name`. -/
def LeftAlone (name : Bytes) : BOp → Prop
  | .child (.fetch _) => False
  | .admin m _ => m ≠ name
  | _ => True

/-- Such an operation, seen from one interface. -/
theorem leftAlone_step {c : Conf} {ifName : Nat → Option Bytes} {s0 s1 s : BDescribed} {ops : List BOp} {op : BOp} {n n1 : Netif} {x : Option Bytes}
    (hl : BLives c ifName s0 (ops ++ [op]) s) (h1 : BLives c ifName s0 ops s1) (hz : c.opts.testBit 11 = true) (hc : LeftAlone n.name op)
    (hn : n1 ∈ s1.child.netifs) (hb : bare n1 = bare n) (hx : s1.descr n.name = some x) (ho1 : BOrdinary s1 n.index) (ho : BOrdinary s n.index) :
    (∃ n' ∈ s.child.netifs, bare n' = bare n) ∧
    (bTold c s1 n.index ≠ bTold c s n.index ∨ BHears s1 s op n.index → s.descr n.name = some (if bTold c s n.index = n.description then x else some (bTold c s n.index))) ∧
    (s.descr n.name = some x ∨ s.descr n.name = some (some (bTold c s n.index)) ∧ bTold c s n.index ≠ n.description) := by
  have hi : n1.index = n.index := (congrArg (fun x : Netif => x.index) hb :)
  obtain ⟨s1', h1', -, hst⟩ := hl.before
  have : s1' = s1 := blives_unique h1' h1
  subst this
  cases op with
  | admin m new =>
    injection hst with hst
    subst hst
    have hkeep : (fun k => if k = m then (s1'.descr k).map fun _ => new else s1'.descr k) n.name = s1'.descr n.name := by
      dsimp only
      rw [if_neg (fun h => hc h.symm)]
    refine ⟨⟨n1, hn, hb⟩, ?_, ?_⟩
    · rintro (h | ⟨_, _, h, -⟩)
      · exact absurd rfl h
      · cases h
    · left
      dsimp only
      rw [if_neg (fun h => hc h.symm)]
      exact hx
  | child op =>
    have hne : ∀ l, op ≠ .fetch l := by
      intro l h
      subst h
      exact hc
    obtain ⟨hch, -⟩ := bDescribedStep_ok hst
    rw [withDescrs_fetch hne] at hch
    have hbare := child_bare hne hch
    have : bare n1 ∈ s.child.netifs.map bare := by rw [hbare]; exact List.mem_map_of_mem hn
    obtain ⟨n', hn', hnn⟩ := List.mem_map.mp this
    have hnn := hnn.trans hb
    have hi : n'.index = n.index := (congrArg (fun x : Netif => x.index) hnn :)
    have hd : n'.description = n.description := (congrArg (fun x : Netif => x.description) hnn :)
    have hm : n'.name = n.name := (congrArg (fun x : Netif => x.name) hnn :)
    refine ⟨⟨n', hn', hnn⟩, ?_⟩
    have := C85_exact c ifName s0 s1' s ops op hl h1 hz n' hn' x (by rw [hm]; exact hx) (by rw [hi]; exact ho1) (by rw [hi]; exact ho)
    rw [hi, hd, hm] at this
    exact this

/-- The description follows the neighbours while the interfaces are not looked at again and nobody else changes it: whenever the description that befits a known interface
differs from that at the beginning of the interval, it is in the kernel (also when the last neighbour has gone and it is empty), unless it is what the last refresh found.
The full claim has no such proviso; it fails, see `C85_returns`. -/
theorem C85_follows_partial (c : Conf) (ifName : Nat → Option Bytes) (s0 s1 s : BDescribed) (pre ops : List BOp)
    (h1 : BLives c ifName s0 pre s1) (hz : c.opts.testBit 11 = true) (hl : BLives c ifName s0 (pre ++ ops) s)
    (n : Netif) (hn : n ∈ s1.child.netifs) (hu : ∀ op ∈ ops, LeftAlone n.name op) (old : Option Bytes) (ha : s1.descr n.name = some old)
    (ho : ∀ ops1 ops2 s', ops = ops1 ++ ops2 → BLives c ifName s0 (pre ++ ops1) s' → BOrdinary s' n.index)
    (hch : bTold c s n.index ≠ bTold c s1 n.index) (hst : bTold c s n.index ≠ n.description) :
    s.descr n.name = some (some (bTold c s n.index)) := by
  have key : ∀ (len : Nat) (ops1 ops2 : List BOp) (s' : BDescribed), ops1.length = len → ops = ops1 ++ ops2 → BLives c ifName s0 (pre ++ ops1) s' →
      (∃ n' ∈ s'.child.netifs, bare n' = bare n) ∧ ∃ x, s'.descr n.name = some x ∧
        (bTold c s' n.index ≠ bTold c s1 n.index → bTold c s' n.index ≠ n.description → x = some (bTold c s' n.index)) := by
    intro len
    induction len with
    | zero =>
      intro ops1 ops2 s' hlen _ h
      have h0 : ops1 = [] := List.eq_nil_of_length_eq_zero hlen
      subst h0
      rw [List.append_nil] at h
      have : s' = s1 := blives_unique h h1
      subst this
      exact ⟨⟨n, hn, rfl⟩, old, ha, fun hc => absurd rfl hc⟩
    | succ len ih =>
      intro ops1 ops2 s' hlen hes h
      rcases List.eq_nil_or_concat ops1 with rfl | ⟨ops3, op, rfl⟩
      · cases hlen
      · rw [List.concat_eq_append] at hlen hes h
        rw [List.length_append, List.length_singleton] at hlen
        have h' := h
        rw [← List.append_assoc] at h'
        obtain ⟨s2, h2, -, -⟩ := h'.before
        obtain ⟨⟨n1, hn1, hb⟩, x, hx, himp⟩ := ih ops3 ([op] ++ ops2) s2 (by omega) (by rw [hes, List.append_assoc]) h2
        obtain ⟨g1, g2, g3⟩ := leftAlone_step h' h2 hz (hu op (by rw [hes]; simp)) hn1 hb hx
          (ho ops3 ([op] ++ ops2) s2 (by rw [hes, List.append_assoc]) h2) (ho (ops3 ++ [op]) ops2 s' hes h)
        refine ⟨g1, ?_⟩
        by_cases hsame : bTold c s2 n.index = bTold c s' n.index
        · rw [hsame] at himp
          rcases g3 with g3 | ⟨g3, -⟩
          · exact ⟨x, g3, himp⟩
          · exact ⟨_, g3, fun _ _ => rfl⟩
        · exact ⟨_, g2 (Or.inl hsame), fun _ k => by rw [if_neg k]⟩
  obtain ⟨-, x, hx, himp⟩ := key ops.length ops [] s rfl (by rw [List.append_nil]) hl
  rw [hx, himp hch hst]

/-- The description settles: if it befits the interface from a refresh until a frame is received there, and nobody else changes it meanwhile, it is what the kernel reports
after this frame (also when it is empty).  If it is not empty, it is the description in the kernel. -/
theorem C85_settles (c : Conf) (ifName : Nat → Option Bytes) (s0 s1 s2 s3 s : BDescribed) (pre ops : List BOp) (l : List Netif) (op : BOp)
    (h1 : BLives c ifName s0 pre s1) (hz : c.opts.testBit 11 = true) (h2 : BLives c ifName s0 (pre ++ [.child (.fetch l)]) s2)
    (h3 : BLives c ifName s0 (pre ++ [.child (.fetch l)] ++ ops) s3) (hl : BLives c ifName s0 (pre ++ [.child (.fetch l)] ++ ops ++ [op]) s)
    (n : Netif) (hn : n ∈ s2.child.netifs) (hu : ∀ x ∈ ops ++ [op], LeftAlone n.name x) (old : Option Bytes) (ha : s1.descr n.name = some old)
    (text : Bytes) (ho : ∀ ops1 ops2 s', ops ++ [op] = ops1 ++ ops2 → BLives c ifName s0 (pre ++ [.child (.fetch l)] ++ ops1) s' →
      BOrdinary s' n.index ∧ bTold c s' n.index = text)
    (hh : BHears s3 s op n.index) :
    readDescr s.descr n.name = text ∧ (text ≠ [] → ∃ d, s.descr n.name = some (some d) ∧ d.takeWhile (· ≠ 0) = text) := by
  have hst2 : bDescribedStep c ifName s1 (.child (.fetch l)) = .ok s2 := by
    obtain ⟨s1', h1', -, hst⟩ := h2.before
    rw [← blives_unique h1' h1]
    exact hst
  have hs2 : s2.descr = s1.descr ∧ n.description = readDescr s1.descr n.name := by
    obtain ⟨k1, k2⟩ := bDescribedStep_ok hst2
    injection k1 with k1
    rw [← k1] at k2 hn
    dsimp only at k2
    rw [List.drop_length] at k2
    injection k2 with k2
    refine ⟨k2.symm, ?_⟩
    obtain ⟨y, hy, rfl⟩ := List.mem_map.mp hn
    rfl
  have key : ∀ (len : Nat) (ops1 ops2 : List BOp) (s' : BDescribed), ops1.length = len → ops ++ [op] = ops1 ++ ops2 →
      BLives c ifName s0 (pre ++ [.child (.fetch l)] ++ ops1) s' →
      (∃ n' ∈ s'.child.netifs, bare n' = bare n) ∧ ∃ x, s'.descr n.name = some x ∧ (text = n.description → x = old) := by
    intro len
    induction len with
    | zero =>
      intro ops1 ops2 s' hlen _ h
      have h0 : ops1 = [] := List.eq_nil_of_length_eq_zero hlen
      subst h0
      rw [List.append_nil] at h
      have : s' = s2 := blives_unique h h2
      subst this
      exact ⟨⟨n, hn, rfl⟩, old, by rw [hs2.1]; exact ha, fun _ => rfl⟩
    | succ len ih =>
      intro ops1 ops2 s' hlen hes h
      rcases List.eq_nil_or_concat ops1 with rfl | ⟨ops3, op', rfl⟩
      · cases hlen
      · rw [List.concat_eq_append] at hlen hes h
        rw [List.length_append, List.length_singleton] at hlen
        have h' := h
        rw [← List.append_assoc] at h'
        obtain ⟨s4, h4, -, -⟩ := h'.before
        obtain ⟨⟨n1, hn1, hb⟩, x, hx, himp⟩ := ih ops3 ([op'] ++ ops2) s4 (by omega) (by rw [hes, List.append_assoc]) h4
        obtain ⟨ho', hT⟩ := ho (ops3 ++ [op']) ops2 s' hes h
        obtain ⟨g1, -, g3⟩ := leftAlone_step h' h4 hz (hu op' (by rw [hes]; simp)) hn1 hb hx
          (ho ops3 ([op'] ++ ops2) s4 (by rw [hes, List.append_assoc]) h4).1 ho'
        refine ⟨g1, ?_⟩
        rw [hT] at g3
        rcases g3 with g3 | ⟨g3, hne⟩
        · exact ⟨x, g3, himp⟩
        · exact ⟨_, g3, fun hc => absurd hc hne⟩
  obtain ⟨⟨n1, hn1, hb⟩, x, hx, himp⟩ := key ops.length ops [op] s3 rfl rfl h3
  obtain ⟨hoe, hTe⟩ := ho (ops ++ [op]) [] s (by rw [List.append_nil]) (by rw [← List.append_assoc]; exact hl)
  obtain ⟨-, g2, -⟩ := leftAlone_step hl h3 hz (hu op (by simp)) hn1 hb hx (ho ops [op] s3 rfl h3).1 hoe
  have g2 := g2 (Or.inr hh)
  rw [hTe] at g2
  have hlen : text.length ≤ 63 := by rw [← hTe]; exact List.length_take_le _ _
  have hnul : (0 : UInt8) ∉ text := by
    rw [← hTe, ← bTold_eq hl hoe]
    exact descrText_nul c.opts n.index hl.safe
  have hcs : text.takeWhile (· ≠ 0) = text := takeWhile_clean _ _ (fun b hb => by
    rw [decide_eq_true_eq]
    exact fun hc => hnul (hc ▸ hb))
  have hread : ∀ (d : Descrs) (x : Option Bytes), d n.name = some x → readDescr d n.name = match x with
      | none => []
      | some t => if t.length + 1 ≤ 64 then t.takeWhile (· ≠ 0) else [] := by
    intro d x hd
    unfold readDescr bsdDescr
    dsimp only
    rw [hd, Option.join_some]
    rfl
  by_cases ht : text = n.description
  · rw [if_pos ht, himp ht] at g2
    have hr : readDescr s.descr n.name = text := by
      rw [ht, hs2.2, hread _ _ g2, hread _ _ ha]
    refine ⟨hr, ?_⟩
    intro hne
    rw [hread _ _ g2] at hr
    cases old with
    | none => exact absurd hr.symm hne
    | some d =>
      dsimp only at hr
      split at hr
      · exact ⟨d, g2, hr⟩
      · exact absurd hr.symm hne
  · rw [if_neg ht] at g2
    refine ⟨?_, fun _ => ⟨text, g2, hcs⟩⟩
    rw [hread _ _ g2]
    dsimp only
    rw [if_pos (by omega), hcs]

/-- What someone else sets. -/
def adminSets (name : Bytes) : List BOp → List (Option Bytes) := fun ops => ops.filterMap fun
  | .admin m new => if m = name then some new else none
  | _ => none

/-- Over a whole history, the description of an interface is the one at the start, one that someone else has set, empty, or a text "connected to ..." of at most 63 bytes.
Without `-z` it is one of the first two. -/
theorem C85_written (c : Conf) (ifName : Nat → Option Bytes) (s0 s : BDescribed) (ops : List BOp) (hl : BLives c ifName s0 ops s) (name : Bytes) :
    s.descr name = s0.descr name ∨ (∃ new ∈ adminSets name ops, s.descr name = some new) ∨
      c.opts.testBit 11 = true ∧ ∃ t, s.descr name = some (some t) ∧ (t = [] ∨ ∃ u, t = lit "connected to " ++ u ∧ u.length ≤ 50) := by
  refine blives_induction (c := c) (ifName := ifName) (s0 := s0) (P := fun ops s => s.descr name = s0.descr name ∨ (∃ new ∈ adminSets name ops, s.descr name = some new) ∨
      c.opts.testBit 11 = true ∧ ∃ t, s.descr name = some (some t) ∧ (t = [] ∨ ∃ u, t = lit "connected to " ++ u ∧ u.length ≤ 50)) (Or.inl rfl) ?_ _ ops s rfl hl
  intro ops op s1 s h1 hok hst ih
  have happ : adminSets name (ops ++ [op]) = adminSets name ops ++ adminSets name [op] := by unfold adminSets; rw [List.filterMap_append]
  have keep : s.descr name = s1.descr name → s.descr name = s0.descr name ∨ (∃ new ∈ adminSets name (ops ++ [op]), s.descr name = some new) ∨
      c.opts.testBit 11 = true ∧ ∃ t, s.descr name = some (some t) ∧ (t = [] ∨ ∃ u, t = lit "connected to " ++ u ∧ u.length ≤ 50) := by
    intro h
    rw [h]
    rcases ih with ih | ⟨new, hm, ih⟩ | ih
    · exact Or.inl ih
    · exact Or.inr (Or.inl ⟨new, by rw [happ]; exact List.mem_append_left _ hm, ih⟩)
    · exact Or.inr (Or.inr ih)
  cases op with
  | admin m new =>
    injection hst with hst
    subst hst
    by_cases hm : name = m
    · cases he : s1.descr name with
      | none => exact keep (by dsimp only; rw [if_pos hm, he]; rfl)
      | some x =>
        refine Or.inr (Or.inl ⟨new, ?_, by dsimp only; rw [if_pos hm, he]; rfl⟩)
        rw [happ]
        refine List.mem_append_right _ ?_
        unfold adminSets
        rw [List.filterMap_cons]
        dsimp only
        rw [if_pos hm.symm]
        simp
    · exact keep (by dsimp only; rw [if_neg hm])
  | child op =>
    have hl' : BLives c ifName s0 (ops ++ [.child op]) s := by
      refine ⟨h1.names, h1.start, ?_, by rw [bDescribedRun_append, h1.run, Res.bind_ok, bDescribedRun, hst, Res.bind_ok]; rfl⟩
      intro x hx
      rcases List.mem_append.mp hx with hx | hx
      · exact h1.each x hx
      · rw [List.mem_singleton.mp hx]; exact hok
    obtain ⟨R, hask, hother, hset⟩ := blives_step hl' h1
    by_cases hr : ∀ r ∈ R, ifName r.1 ≠ some name
    · exact keep (hother name hr)
    · have : ∃ i, ifName i = some name := Classical.byContradiction fun hc => hr fun r _ h => hc ⟨r.1, h⟩
      obtain ⟨i, hi⟩ := this
      have hset := hset i name hi
      split at hset
      · next hm =>
        have hz : c.opts.testBit 11 = true := by
          cases hz : c.opts.testBit 11 with
          | true => rfl
          | false =>
            rw [hask.off hz] at hm
            cases hm
        cases he : s1.descr name with
        | none => exact keep (by rw [hset, he]; rfl)
        | some x =>
          rw [he, Option.map_some] at hset
          refine Or.inr (Or.inr ⟨hz, _, hset, ?_⟩)
          rcases descrText_head c.opts i s.child.queue with h | ⟨t, h⟩
          · exact Or.inl h
          · refine Or.inr ⟨t, h, ?_⟩
            have hlen := descrText_length c.opts i s.child.queue
            rw [h, List.length_append, show (lit "connected to ").length = 13 from by decide] at hlen
            omega
      · exact keep hset

/-! ## Samples -/

/-- The names of the one network card, as `netif_fetch` reports it. -/
def bzCards : List Netif := [{ index := 4, name := lit "eth0", hwaddr := [2, 0, 0, 0, 0, 3] }]

/-- Frames as in the samples of C79. -/
def bzHello (now : Int) (b ttl : UInt8) (name : Bytes) : BOp := .child (.recv (some now) (rawOf ⟨4, .lldp, zFrame b ttl name⟩))

def bzFetch : BOp := .child (.fetch bzCards)

def bzExpire (now : Int) : BOp := .child (.expire now)

/-- The start: the description of the card is `a`. -/
def bzStart (a : Option Bytes) : BDescribed := ⟨{}, fun n => if n = lit "eth0" then some a else none⟩

theorem bzHello_ok {now : Int} {b ttl : UInt8} {name : Bytes} (hc : zCaptured b ttl name = true) (hn : 0 < now) : BOpOk zNames (bzHello now b ttl name) :=
  (zHello_ok hc hn).2

theorem bzFetch_ok : BOpOk zNames bzFetch := by
  refine ⟨by decide, ?_⟩
  intro n hn
  rw [List.mem_singleton.mp hn]
  decide

/-- Two states of a history. -/
def bzBoth (a : Option Bytes) (pre ops : List BOp) (f : BDescribed → BDescribed → Bool) : Bool :=
  match bDescribedRun zConf zNames pre (bzStart a) with
  | .ok s1 => match bDescribedRun zConf zNames ops s1 with
    | .ok s => f s1 s
    | _ => false
  | _ => false

theorem bzBoth_ok {a : Option Bytes} {pre ops : List BOp} {f : BDescribed → BDescribed → Bool} (h : bzBoth a pre ops f = true)
    (he : ∀ op ∈ pre ++ ops, BOpOk zNames op) :
    ∃ s1 s, BLives zConf zNames (bzStart a) pre s1 ∧ BLives zConf zNames (bzStart a) (pre ++ ops) s ∧ f s1 s = true := by
  unfold bzBoth at h
  cases h1 : bDescribedRun zConf zNames pre (bzStart a) with
  | ok s1 =>
    rw [h1] at h
    dsimp only at h
    cases h2 : bDescribedRun zConf zNames ops s1 with
    | ok s =>
      rw [h2] at h
      exact ⟨s1, s, ⟨zNames_ok, rfl, fun e hm => he e (List.mem_append_left _ hm), h1⟩,
        ⟨zNames_ok, rfl, he, by rw [bDescribedRun_append, h1, Res.bind_ok, h2]⟩, h⟩
    | fail => rw [h2] at h; cases h
    | oob => rw [h2] at h; cases h
    | abort => rw [h2] at h; cases h
    | stuck => rw [h2] at h; cases h
  | fail => rw [h1] at h; cases h
  | oob => rw [h1] at h; cases h
  | abort => rw [h1] at h; cases h
  | stuck => rw [h1] at h; cases h

/-- A second neighbour comes and says that it leaves before the interfaces are looked at again: the kernel keeps "2 peers", although frames of the first go on. -/
theorem C85_returns : ∃ s1 s,
    BLives zConf zNames (bzStart (some (lit "uplink"))) [bzFetch, bzHello 11 1 120 (lit "sw1"), bzFetch] s1 ∧
    BLives zConf zNames (bzStart (some (lit "uplink"))) ([bzFetch, bzHello 11 1 120 (lit "sw1"), bzFetch] ++
      [bzHello 21 2 120 (lit "sw2"), bzHello 22 2 0 (lit "sw2"), bzHello 23 1 120 (lit "sw1")]) s ∧
    s1.descr (lit "eth0") = some (some (lit "connected to sw1 (b)")) ∧ bTold zConf s 4 = lit "connected to sw1 (b)" ∧
    s.descr (lit "eth0") = some (some (lit "connected to 2 peers")) := by
  obtain ⟨s1, s, h1, h2, hf⟩ := bzBoth_ok (a := some (lit "uplink")) (pre := [bzFetch, bzHello 11 1 120 (lit "sw1"), bzFetch])
    (ops := [bzHello 21 2 120 (lit "sw2"), bzHello 22 2 0 (lit "sw2"), bzHello 23 1 120 (lit "sw1")])
    (f := fun s1 s => decide (s1.descr (lit "eth0") = some (some (lit "connected to sw1 (b)")) ∧ bTold zConf s 4 = lit "connected to sw1 (b)" ∧
      s.descr (lit "eth0") = some (some (lit "connected to 2 peers")))) (by decide +kernel) (by
      intro e he
      simp only [List.cons_append, List.nil_append, List.mem_cons, List.not_mem_nil, or_false] at he
      rcases he with rfl | rfl | rfl | rfl | rfl | rfl <;> first | exact bzFetch_ok | exact bzHello_ok (by decide +kernel) (by decide))
  exact ⟨s1, s, h1, h2, of_decide_eq_true hf⟩

/-- A description set by someone else is lost when the only neighbour comes and goes; one of 64 bytes or more is taken for none, and stays while there
are no neighbours. -/
theorem C85_lost : ∃ s1 s s2,
    BLives zConf zNames (bzStart (some (lit "uplink"))) [bzFetch, bzHello 11 1 120 (lit "sw1")] s1 ∧
    BLives zConf zNames (bzStart (some (lit "uplink"))) ([bzFetch, bzHello 11 1 120 (lit "sw1")] ++ [bzExpire 200]) s ∧
    BLives zConf zNames (bzStart (some (lit "uplink"))) ([bzFetch, .admin (lit "eth0") (some (List.replicate 64 0x61)), bzFetch] ++ [bzHello 11 1 0 (lit "sw1")]) s2 ∧
    s1.descr (lit "eth0") = some (some (lit "connected to sw1 (b)")) ∧ s.descr (lit "eth0") = some (some []) ∧
    s2.child.out = [] ∧ s2.descr (lit "eth0") = some (some (List.replicate 64 0x61)) := by
  obtain ⟨s1, s, h1, h2, hf⟩ := bzBoth_ok (a := some (lit "uplink")) (pre := [bzFetch, bzHello 11 1 120 (lit "sw1")]) (ops := [bzExpire 200])
    (f := fun s1 s => decide (s1.descr (lit "eth0") = some (some (lit "connected to sw1 (b)")) ∧ s.descr (lit "eth0") = some (some []))) (by decide +kernel) (by
      intro e he
      simp only [List.cons_append, List.nil_append, List.mem_cons, List.not_mem_nil, or_false] at he
      rcases he with rfl | rfl | rfl <;> first | exact bzFetch_ok | exact bzHello_ok (by decide +kernel) (by decide) | trivial)
  obtain ⟨-, s2, -, h3, hf2⟩ := bzBoth_ok (a := some (lit "uplink")) (pre := [bzFetch, .admin (lit "eth0") (some (List.replicate 64 0x61)), bzFetch])
    (ops := [bzHello 11 1 0 (lit "sw1")])
    (f := fun _ s => decide (s.child.out = [] ∧ s.descr (lit "eth0") = some (some (List.replicate 64 0x61)))) (by decide +kernel) (by
      intro e he
      simp only [List.cons_append, List.nil_append, List.mem_cons, List.not_mem_nil, or_false] at he
      rcases he with rfl | rfl | rfl | rfl <;> first | exact bzFetch_ok | exact bzHello_ok (by decide +kernel) (by decide) | trivial)
  exact ⟨s1, s, s2, h1, h2, h3, (of_decide_eq_true hf).1, (of_decide_eq_true hf).2, of_decide_eq_true hf2⟩

/-- A system with one network card whose description can be set. -/
def bzEnv : BPEnv := descrEnv zNames (bzStart none).descr

/-- The cases of `C85_request`: a description, one that is too long, a request of Linux, an unknown interface, and a datagram that is no request. -/
example : (∀ i n, bzEnv.base.ifName i = some n → n.length ≤ 15) ∧
    (match bsdParentReq zConf bzEnv {} (mreqBytes 2 4 (lit "up" ++ [0])) with | .ok x => x.2.2 | _ => []) = [(lit "eth0", lit "up" ++ [0])] ∧
    bsdParentReq zConf bzEnv {} (mreqBytes 2 4 (List.replicate 65 0x61)) = .abort ∧
    bsdParentReq zConf bzEnv {} (mreqBytes 3 4 []) = .abort ∧
    (match bsdParentReq zConf bzEnv {} (mreqBytes 2 5 (lit "up")) with | .ok x => x.2.1.length | _ => 0) = 32 ∧
    bsdParentReq zConf bzEnv {} [1, 2, 3] = .abort := by
  exact ⟨zNames_ok.short, by decide +kernel, by rfl, by rfl, by decide +kernel, by rfl⟩

/-- The hypotheses of `C85_served`, `C85_exact` and `C85_follows_partial`: the only neighbour says that it leaves; the text becomes empty. -/
example : ∃ s1 s, BLives zConf zNames (bzStart (some (lit "uplink"))) [bzFetch, bzHello 11 1 120 (lit "sw1")] s1 ∧
    BLives zConf zNames (bzStart (some (lit "uplink"))) ([bzFetch, bzHello 11 1 120 (lit "sw1")] ++ [bzHello 12 1 0 (lit "sw1")]) s ∧
    (∀ op ∈ [bzHello 12 1 0 (lit "sw1")], LeftAlone (lit "eth0") op) ∧ BOrdinary s1 4 ∧ BOrdinary s 4 ∧
    s1.descr (lit "eth0") = some (some (lit "connected to sw1 (b)")) ∧
    s1.child.netifs.map (fun n => (n.index, n.name, n.description)) = [(4, lit "eth0", lit "uplink")] ∧ bTold zConf s 4 = [] ∧
    bTold zConf s1 4 = lit "connected to sw1 (b)" ∧ s.descr (lit "eth0") = some (some []) := by
  obtain ⟨s1, s, h1, h2, hf⟩ := bzBoth_ok (a := some (lit "uplink")) (pre := [bzFetch, bzHello 11 1 120 (lit "sw1")]) (ops := [bzHello 12 1 0 (lit "sw1")])
    (f := fun s1 s => decide (BOrdinary s1 4 ∧ BOrdinary s 4 ∧ s1.descr (lit "eth0") = some (some (lit "connected to sw1 (b)")) ∧
      s1.child.netifs.map (fun n => (n.index, n.name, n.description)) = [(4, lit "eth0", lit "uplink")] ∧ bTold zConf s 4 = [] ∧
      bTold zConf s1 4 = lit "connected to sw1 (b)" ∧ s.descr (lit "eth0") = some (some []))) (by decide +kernel) (by
      intro e he
      simp only [List.cons_append, List.nil_append, List.mem_cons, List.not_mem_nil, or_false] at he
      rcases he with rfl | rfl | rfl <;> first | exact bzFetch_ok | exact bzHello_ok (by decide +kernel) (by decide))
  exact ⟨s1, s, h1, h2, fun e he => by rw [List.mem_singleton.mp he]; trivial, of_decide_eq_true hf⟩

/-- The hypotheses of `C85_settles`: after `C85_returns` a refresh and another frame set the description right. -/
example : ∃ s2 s, BLives zConf zNames (bzStart none) ([bzFetch, bzHello 11 1 120 (lit "sw1"), bzHello 21 2 120 (lit "sw2"), bzHello 22 2 0 (lit "sw2")] ++ [bzFetch]) s2 ∧
    BLives zConf zNames (bzStart none) ([bzFetch, bzHello 11 1 120 (lit "sw1"), bzHello 21 2 120 (lit "sw2"), bzHello 22 2 0 (lit "sw2")] ++ [bzFetch] ++
      [.admin (lit "eth1") none, bzHello 31 1 120 (lit "sw1")]) s ∧ BOrdinary s2 4 ∧ BOrdinary s 4 ∧ bTold zConf s2 4 = lit "connected to sw1 (b)" ∧
    bTold zConf s 4 = lit "connected to sw1 (b)" ∧ s2.child ≠ s.child ∧ s.descr (lit "eth0") = some (some (lit "connected to sw1 (b)")) := by
  obtain ⟨s1, s, h1, h2, hf⟩ := bzBoth_ok (a := none) (pre := [bzFetch, bzHello 11 1 120 (lit "sw1"), bzHello 21 2 120 (lit "sw2"), bzHello 22 2 0 (lit "sw2")] ++ [bzFetch])
    (ops := [.admin (lit "eth1") none, bzHello 31 1 120 (lit "sw1")])
    (f := fun s1 s => decide (BOrdinary s1 4 ∧ BOrdinary s 4 ∧ bTold zConf s1 4 = lit "connected to sw1 (b)" ∧ bTold zConf s 4 = lit "connected to sw1 (b)" ∧
      s1.child ≠ s.child ∧ s.descr (lit "eth0") = some (some (lit "connected to sw1 (b)")))) (by decide +kernel) (by
      intro e he
      simp only [List.cons_append, List.nil_append, List.mem_cons, List.not_mem_nil, or_false] at he
      rcases he with rfl | rfl | rfl | rfl | rfl | rfl | rfl <;> first | exact bzFetch_ok | exact bzHello_ok (by decide +kernel) (by decide) | trivial)
  exact ⟨s1, s, h1, h2, of_decide_eq_true hf⟩

end Ladvd.Props
