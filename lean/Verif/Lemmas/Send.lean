import Verif.Model.Send
import Verif.Lemmas.BsdMedia
import Verif.Lemmas.Refs
/-!
# Lemmas about transmission
-/

namespace Ladvd

/-! ## What a round does not change -/

/-- The parts of an interface record a round does not change. -/
def static (n : Netif) : Netif :=
  { n with linkEvent := 0, mtu := 0, duplex := 0, autonegSupported := 0, autonegEnabled := 0, autonegPmd := 0, mau := 0 }

theorem static_index (n : Netif) : (static n).index = n.index := rfl

theorem netifMedia_static (m : Media) (n : Netif) : static (netifMedia m n) = static n := by
  unfold netifMedia
  cases hb : m.bsd with
  | none =>
    unfold linuxMedia
    dsimp only
    split
    · unfold netifPhysical
      split
      · rfl
      · dsimp only
        split <;> rfl
    · rfl
  | some b =>
    obtain ⟨v, h⟩ := bsdMedia_one b n
    show static (bsdMedia b n) = _
    rw [h]; rfl

theorem netifMedia_index (m : Media) (n : Netif) : (netifMedia m n).index = n.index := show (static _).index = (static n).index from
  congrArg (fun x : Netif => x.index) (netifMedia_static m n)

theorem netifMedia_linkEvent (m : Media) (n : Netif) : (netifMedia m n).linkEvent = n.linkEvent := by
  unfold netifMedia
  cases hb : m.bsd with
  | none =>
    unfold linuxMedia
    dsimp only
    split
    · unfold netifPhysical
      split
      · rfl
      · dsimp only
        split <;> rfl
    · rfl
  | some b =>
    obtain ⟨v, h⟩ := bsdMedia_one b n
    show (bsdMedia b n).linkEvent = _
    rw [h]; rfl

theorem setNetif_static (l : List Netif) (i : Nat) (f : Netif → Netif) (hf : ∀ n, static (f n) = static n) :
    (setNetif l i f).map static = l.map static := by
  unfold setNetif
  rw [List.map_map]
  apply List.map_congr_left
  intro n _
  show static (if n.index = i then f n else n) = _
  split
  · exact hf n
  · rfl

theorem byIndex_static (l : List Netif) (i : Nat) : netifByIndex (l.map static) i = (netifByIndex l i).map static :=
  byIndex_map l static static_index i

theorem sendSkip_static (c : Conf) (n : Netif) : sendSkip c (static n) = sendSkip c n := rfl

theorem subifIter_static (l : List Netif) (cur : Option Netif) (n : Netif) :
    subifIter (l.map static) (cur.map static) (static n) = (subifIter l cur n).map static := by
  have hb : ∀ x : Option Nat, x.bind (netifByIndex (l.map static)) = (x.bind (netifByIndex l)).map static := by
    intro x
    cases x with
    | none => rfl
    | some i => exact byIndex_static l i
  cases cur with
  | none =>
    show (if n.type > NETIF_PARENT then n.subif.bind (netifByIndex (l.map static))
      else if n.type < NETIF_REGULAR then none else some (static n)) =
      (if n.type > NETIF_PARENT then n.subif.bind (netifByIndex l)
      else if n.type < NETIF_REGULAR then none else some n).map static
    rw [hb]
    split
    · rfl
    · split <;> rfl
  | some s =>
    show (if s.index = n.index then none else s.subif.bind (netifByIndex (l.map static))) =
      (if s.index = n.index then none else s.subif.bind (netifByIndex l)).map static
    rw [hb]
    split <;> rfl

/-- The indexes of the ports. -/
def portIdx (l : List Netif) (n : Netif) : Res (List Nat) := (ports l n).bind (fun ps => .ok (ps.map (·.index)))

theorem subifLoop_static (l : List Netif) (n : Netif) : ∀ (fuel : Nat) (cur : Option Netif),
    subifLoop (l.map static) (static n) fuel (cur.map static) =
      (subifLoop l n fuel cur).bind (fun ps => .ok (ps.map static)) := by
  intro fuel
  induction fuel with
  | zero => intro cur; rfl
  | succ fuel ih =>
    intro cur
    simp only [subifLoop, subifIter_static]
    cases h : subifIter l cur n with
    | none => rfl
    | some s =>
      have := ih (some s)
      simp only [Option.map_some, Res.bind_eq, Res.pure_eq] at this ⊢
      rw [this]
      cases subifLoop l n fuel (some s) <;> rfl

theorem portIdx_static (l : List Netif) (n : Netif) : portIdx (l.map static) (static n) = portIdx l n := by
  unfold portIdx ports
  rw [List.length_map]
  have := subifLoop_static l n (l.length + 2) none
  rw [Option.map_none] at this
  rw [this]
  cases subifLoop l n (l.length + 2) none with
  | ok a =>
    simp only [Res.bind_ok, List.map_map]
    rfl
  | fail => rfl
  | oob => rfl
  | abort => rfl
  | stuck => rfl

theorem traverse_static (o : Opts) (l : List Netif) :
    (netifTraverse o (l.map static)).map (·.index) = (netifTraverse o l).map (·.index) := by
  rw [netifTraverse_eq, netifTraverse_eq, List.filter_map, List.map_map]
  rfl

/-! ## The planned transmissions -/

/-- Protocol `p` is sent for interface `n`. -/
def wanted (c : Conf) (n : Netif) (p : Proto) : Bool := c.enabled p || n.protos.testBit p.num

/-- What is sent on port `i` of `n`. -/
def planPort (c : Conf) (link : Option Nat) (l : List Netif) (n : Netif) (i : Nat) : List (Nat × Proto) :=
  if link ≠ none ∧ link ≠ some i then []
  else match netifByIndex l i with
    | none => []
    | some s =>
      if sendSkip c s then []
      else if c.opts.has OPT_SEND then (Proto.all.filter (wanted c n)).map (fun p => (i, p)) else []

/-- The value of a loop that ended. -/
def okList (r : Res (List Nat)) : List Nat := match r with | .ok l => l | _ => []

/-- What is sent for interface `i`. -/
def planNetif (c : Conf) (link : Option Nat) (l : List Netif) (i : Nat) : List (Nat × Proto) :=
  match netifByIndex l i with
  | none => []
  | some n => if sendSkip c n then [] else (okList (portIdx l n)).flatMap (planPort c link l n)

theorem planPort_static {c : Conf} {link : Option Nat} {l l' : List Netif} (h : l'.map static = l.map static)
    {n n' : Netif} (hn : static n' = static n) (i : Nat) : planPort c link l' n' i = planPort c link l n i := by
  have key : ∀ (l : List Netif) (n : Netif), planPort c link (l.map static) (static n) i = planPort c link l n i := by
    intro l n
    unfold planPort
    rw [byIndex_static]
    cases netifByIndex l i with
    | none => rfl
    | some s => rfl
  rw [← key, h, hn, key]

theorem planNetif_static {c : Conf} {link : Option Nat} {l l' : List Netif} (h : l'.map static = l.map static) (i : Nat) :
    planNetif c link l' i = planNetif c link l i := by
  have key : ∀ (l : List Netif), planNetif c link (l.map static) i = planNetif c link l i := by
    intro l
    unfold planNetif
    rw [byIndex_static]
    cases netifByIndex l i with
    | none => rfl
    | some s =>
      dsimp only [Option.map_some]
      rw [sendSkip_static, portIdx_static]
      have : planPort c link (l.map static) (static s) = planPort c link l s := by
        funext j
        refine planPort_static ?_ rfl j
        rw [List.map_map]; rfl
      rw [this]
  rw [← key, h, key]

/-! ## The loops -/

/-- Interface and protocol of a message. -/
def key (t : Tx) : Nat × Proto := (t.index, t.proto)

/-- A message carries the frame built for the interface, with a zero source address on a backup port. -/
def Carries (c : Conf) (n s : Netif) (e : PktEnv) (t : Tx) : Prop :=
  c.opts.has OPT_SEND = true ∧ sendSkip c n = false ∧ sendSkip c s = false ∧ wanted c n t.proto = true ∧
  e.nif = s ∧ e.opts = c.opts ∧ t.index = s.index ∧
  ∃ seq msg, t.proto.build (List.replicate ETHER_MAX_LEN 0) e seq = .ok (msg, t.len) ∧ t.len ≠ 0 ∧
    t.msg = (if n.bondingMode = 2 ∧ s.child ≠ 1 then msg.take 6 ++ List.replicate 6 0 ++ msg.drop 12 else msg)

theorem sendOne_ok {c : Conf} {n s : Netif} {d d' : Daemon} {p : Proto} (h : sendOne c n s d p = .ok d') :
    ∃ new, d' = { d with seq := d'.seq, tx := d.tx ++ new } ∧
      (new = [] ∨ wanted c n p = true ∧ ∃ t, new = [t] ∧ key t = (s.index, p) ∧
        ∃ seq msg, t.proto.build (List.replicate ETHER_MAX_LEN 0) (pktEnv c d s) seq = .ok (msg, t.len) ∧ t.len ≠ 0 ∧
        t.msg = (if n.bondingMode = 2 ∧ s.child ≠ 1 then msg.take 6 ++ List.replicate 6 0 ++ msg.drop 12 else msg)) ∧
      (wanted c n p = true → (∃ r, p.build (List.replicate ETHER_MAX_LEN 0) (pktEnv c d s) d.seq = .ok r ∧ r.2 ≠ 0) →
        new ≠ []) := by
  unfold sendOne at h
  by_cases hw : wanted c n p = true
  · have hw' : (!c.enabled p && !n.protos.testBit p.num) = false := by
      unfold wanted at hw
      cases h1 : c.enabled p <;> cases h2 : n.protos.testBit p.num <;> simp_all
    rw [hw'] at h
    rw [if_neg Bool.false_ne_true] at h
    dsimp only at h
    cases hb : p.build (List.replicate ETHER_MAX_LEN 0) (pktEnv c d s) d.seq with
    | ok r =>
      obtain ⟨msg, len⟩ := r
      rw [hb] at h
      dsimp only at h
      by_cases hl : len = 0
      · rw [if_pos hl] at h
        injection h with h
        subst h
        refine ⟨[], by simp, Or.inl rfl, ?_⟩
        rintro - ⟨r, hr, hr2⟩
        injection hr with hr
        subst hr
        exact absurd hl hr2
      · rw [if_neg hl] at h
        injection h with h
        subst h
        exact ⟨_, rfl, Or.inr ⟨hw, _, rfl, rfl, d.seq, msg, hb, hl, rfl⟩, fun _ _ => List.cons_ne_nil _ _⟩
    | fail =>
      rw [hb] at h
      injection h with h
      subst h
      refine ⟨[], by simp, Or.inl rfl, ?_⟩
      rintro - ⟨r, hr, -⟩
      cases hr
    | oob => rw [hb] at h; cases h
    | abort => rw [hb] at h; cases h
    | stuck => rw [hb] at h; cases h
  · have hw' : (!c.enabled p && !n.protos.testBit p.num) = true := by
      unfold wanted at hw
      cases h1 : c.enabled p <;> cases h2 : n.protos.testBit p.num <;> simp_all
    rw [hw'] at h
    rw [if_pos rfl] at h
    injection h with h
    subst h
    exact ⟨[], by simp, Or.inl rfl, fun h => absurd h hw⟩

theorem sendAll_ok {c : Conf} {n s : Netif} : ∀ (ps : List Proto) {d d' : Daemon}, sendAll c n s ps d = .ok d' →
    ∃ new, d' = { d with seq := d'.seq, tx := d.tx ++ new } ∧
      (new.map key).Sublist ((ps.filter (wanted c n)).map (fun p => (s.index, p))) ∧
      (∀ t ∈ new, t.index = s.index ∧ wanted c n t.proto = true ∧
        ∃ seq msg, t.proto.build (List.replicate ETHER_MAX_LEN 0) (pktEnv c d s) seq = .ok (msg, t.len) ∧ t.len ≠ 0 ∧
        t.msg = (if n.bondingMode = 2 ∧ s.child ≠ 1 then msg.take 6 ++ List.replicate 6 0 ++ msg.drop 12 else msg)) ∧
      ((∀ (p : Proto) seq, ∃ r, p.build (List.replicate ETHER_MAX_LEN 0) (pktEnv c d s) seq = .ok r ∧ r.2 ≠ 0) →
        new.map key = (ps.filter (wanted c n)).map (fun p => (s.index, p))) := by
  intro ps
  induction ps with
  | nil =>
    intro d d' h
    injection h with h
    subst h
    exact ⟨[], by simp, List.Sublist.refl _, fun _ h => (nomatch h), fun _ => rfl⟩
  | cons p ps ih =>
    intro d d' h
    simp only [sendAll] at h
    cases h1 : sendOne c n s d p with
    | ok d1 =>
      rw [h1] at h
      obtain ⟨new1, e1, hc1, hf1⟩ := sendOne_ok h1
      obtain ⟨new2, e2, hs2, hm2, hf2⟩ := ih h
      have henv : pktEnv c d1 s = pktEnv c d s := by rw [e1]; rfl
      rw [henv] at hm2 hf2
      refine ⟨new1 ++ new2, ?_, ?_, ?_, ?_⟩
      · rw [e2, e1]; simp
      · rw [List.map_append]
        rcases hc1 with rfl | ⟨hw, t, rfl, hk, -⟩
        · refine hs2.trans ?_
          rw [List.filter_cons]
          split
          · exact List.sublist_cons_self _ _
          · exact List.Sublist.refl _
        · rw [List.filter_cons, if_pos hw, List.map_cons, List.map_cons, hk]
          exact List.Sublist.cons_cons _ hs2
      · intro t ht
        rcases List.mem_append.mp ht with ht | ht
        · rcases hc1 with rfl | ⟨hw, t', rfl, hk, hb⟩
          · cases ht
          · rw [List.mem_singleton] at ht
            subst ht
            have hi : t.index = s.index := congrArg Prod.fst hk
            have hp : t.proto = p := congrArg Prod.snd hk
            exact ⟨hi, by rw [hp]; exact hw, hb⟩
        · exact hm2 t ht
      · intro hall
        rw [List.map_append, hf2 hall]
        by_cases hw : wanted c n p = true
        · have hne := hf1 hw (hall p d.seq)
          rcases hc1 with rfl | ⟨-, t, rfl, hk, -⟩
          · exact absurd rfl hne
          · rw [List.filter_cons, if_pos hw, List.map_cons, List.map_cons, hk]; rfl
        · rcases hc1 with rfl | ⟨hw', -⟩
          · rw [List.filter_cons, if_neg hw]; rfl
          · exact absurd hw' hw
    | fail => rw [h1] at h; cases h
    | oob => rw [h1] at h; cases h
    | abort => rw [h1] at h; cases h
    | stuck => rw [h1] at h; cases h

/-- The state apart from the interface list, sequence number and the recorded requests and messages. -/
def Daemon.rest (d : Daemon) : Child × SysInfo × Option Nat × List Nat :=
  ({ d.child with netifs := [] }, d.sys, d.mnetif, d.closed)

/-- What the loops may do to the state. -/
structure Sent (d d' : Daemon) (new : List Tx) : Prop where
  rest : d'.rest = d.rest
  same : d'.child.netifs.map static = d.child.netifs.map static
  mtu : (∀ n ∈ d.child.netifs, n.mtu < 65536) → ∀ n ∈ d'.child.netifs, n.mtu < 65536
  tx : d'.tx = d.tx ++ new

theorem Sent.refl (d : Daemon) : Sent d d [] := ⟨rfl, rfl, fun h => h, by simp⟩

theorem Sent.trans {d d1 d2 : Daemon} {a b : List Tx} (h1 : Sent d d1 a) (h2 : Sent d1 d2 b) :
    Sent d d2 (a ++ b) :=
  ⟨h2.rest.trans h1.rest, h2.same.trans h1.same, fun h => h2.mtu (h1.mtu h), by rw [h2.tx, h1.tx, List.append_assoc]⟩

theorem Sent.set (d : Daemon) (i : Nat) (f : Netif → Netif) (hf : ∀ n, static (f n) = static n)
    (hm : ∀ n, n.mtu < 65536 → (f n).mtu < 65536) : Sent d (d.set i f) [] := by
  refine ⟨rfl, setNetif_static _ _ _ hf, ?_, by simp [Daemon.set]⟩
  intro h n hn
  unfold Daemon.set setNetif at hn
  obtain ⟨x, hx, rfl⟩ := List.mem_map.mp hn
  split
  · exact hm x (h x hx)
  · exact h x hx

theorem netifMedia_mtu (m : Media) (n : Netif) (h : n.mtu < 65536) : (netifMedia m n).mtu < 65536 := by
  have key : ((m.mtu n.name).map (· % 65536)).getD n.mtu < 65536 := by
    cases m.mtu n.name with
    | none => exact h
    | some x => exact Nat.mod_lt _ (by decide)
  unfold netifMedia
  cases hb : m.bsd with
  | none =>
    unfold linuxMedia
    dsimp only
    split
    · unfold netifPhysical
      split
      · exact key
      · dsimp only
        split <;> exact key
    · exact key
  | some b =>
    obtain ⟨v, h⟩ := bsdMedia_one b n
    show (bsdMedia b n).mtu < _
    rw [h]
    show ((b.mtu n.name).map (· % 65536)).getD n.mtu < _
    cases b.mtu n.name with
    | none => exact ‹n.mtu < 65536›
    | some x => exact Nat.mod_lt _ (by decide)

/-- Where a message came from: port `s` of `n`, built in a state that differs from `d` only by the loops. -/
def Origin (c : Conf) (d : Daemon) (t : Tx) : Prop :=
  ∃ n s d1 a, Sent d d1 a ∧ s ∈ d1.child.netifs ∧ (∃ x ∈ d.child.netifs, static x = static n) ∧
    (∃ ps, portIdx d.child.netifs n = .ok ps ∧ s.index ∈ ps) ∧ Carries c n s (pktEnv c d1 s) t

theorem Origin.after {c : Conf} {d d1 : Daemon} {a : List Tx} (h : Sent d d1 a) {t : Tx} (ho : Origin c d1 t) :
    Origin c d t := by
  obtain ⟨n, s, d2, b, h2, hs, ⟨x, hx, hxn⟩, ⟨ps, hp, hi⟩, hc⟩ := ho
  refine ⟨n, s, d2, a ++ b, h.trans h2, hs, ?_, ⟨ps, ?_, hi⟩, hc⟩
  · have : static x ∈ d1.child.netifs.map static := List.mem_map_of_mem hx
    rw [h.same] at this
    obtain ⟨y, hy, e⟩ := List.mem_map.mp this
    exact ⟨y, hy, e.trans hxn⟩
  · rw [← portIdx_static, ← h.same, portIdx_static]; exact hp

/-- Every advertisement of the interfaces of a list can be built. -/
def AllBuild (c : Conf) (d : Daemon) : Prop :=
  ∀ d1 a s, Sent d d1 a → s ∈ d1.child.netifs → ∀ (p : Proto) (seq : Nat),
    ∃ r, p.build (List.replicate ETHER_MAX_LEN 0) (pktEnv c d1 s) seq = .ok r ∧ r.2 ≠ 0

theorem AllBuild.after {c : Conf} {d d1 : Daemon} {a : List Tx} (h : Sent d d1 a) (hb : AllBuild c d) : AllBuild c d1 :=
  fun d2 b s h2 hs p seq => hb d2 (a ++ b) s (h.trans h2) hs p seq

/-- The link event counter of an interface. -/
def linkOf (d : Daemon) (i : Nat) : Option Nat := (netifByIndex d.child.netifs i).map (·.linkEvent)

theorem linkOf_set (d : Daemon) (i j : Nat) (f : Netif → Netif) (hf : ∀ n, (f n).index = n.index) :
    linkOf (d.set i f) j = (netifByIndex d.child.netifs j).map (fun n => if n.index = i then (f n).linkEvent else n.linkEvent) := by
  unfold linkOf Daemon.set
  dsimp only
  rw [byIndex_set _ _ _ hf, Option.map_map]
  cases netifByIndex d.child.netifs j with
  | none => rfl
  | some n =>
    simp only [Option.map_some, Function.comp]
    split <;> rfl

theorem countLink_index (link : Option Nat) (n : Netif) : (countLink link n).index = n.index := rfl

/-- What `netif_media` may do to an interface. -/
structure MediaFun (f : Netif → Netif) : Prop where
  static : ∀ n, static (f n) = static n
  linkEvent : ∀ n, (f n).linkEvent = n.linkEvent
  mtu : ∀ n, n.mtu < 65536 → (f n).mtu < 65536

theorem MediaFun.index {f : Netif → Netif} (h : MediaFun f) (n : Netif) : (f n).index = n.index := show (Ladvd.static _).index = (Ladvd.static n).index from
  congrArg (fun x : Netif => x.index) (h.static n)

theorem mediaFun (m : Media) : MediaFun (netifMedia m) := ⟨netifMedia_static m, netifMedia_linkEvent m, netifMedia_mtu m⟩

/-- One port. -/
theorem sendPort_ok {c : Conf} {m : Netif → Netif} (hm : MediaFun m) {link : Option Nat} {n : Netif} {d d' : Daemon} {i : Nat}
    (hn : ∃ x ∈ d.child.netifs, static x = static n) (hp : ∃ ps, portIdx d.child.netifs n = .ok ps ∧ i ∈ ps)
    (hk : sendSkip c n = false) (h : sendPort c m link n d i = .ok d') :
    ∃ new, Sent d d' new ∧ (new.map key).Sublist (planPort c link d.child.netifs n i) ∧ (∀ t ∈ new, Origin c d t) ∧
      (AllBuild c d → new.map key = planPort c link d.child.netifs n i) ∧
      (∀ j, linkOf d' j = if j = i ∧ (link = none ∨ link = some i) then
        (linkOf d j).map (fun x => if link = none then 0 else (x + 1) % 256) else linkOf d j) := by
  unfold sendPort at h
  unfold planPort
  by_cases hl : link ≠ none ∧ link ≠ some i
  · rw [if_pos hl] at h
    injection h with h
    subst h
    refine ⟨[], Sent.refl _, List.nil_sublist _, fun _ h => (nomatch h), fun _ => by rw [if_pos hl]; rfl, ?_⟩
    intro j
    rw [if_neg]
    rintro ⟨-, h | h⟩
    · exact hl.1 h
    · exact hl.2 h
  · rw [if_neg hl] at h
    rw [if_neg hl]
    have hl' : link = none ∨ link = some i := by
      by_cases h1 : link = none
      · exact Or.inl h1
      · by_cases h2 : link = some i
        · exact Or.inr h2
        · exact absurd ⟨h1, h2⟩ hl
    dsimp only at h
    have hs1 : Sent d (d.set i (countLink link)) [] :=
      Sent.set d i _ (fun _ => rfl) (fun _ h => h)
    have hlk : ∀ j, linkOf (d.set i (countLink link)) j =
        if j = i ∧ (link = none ∨ link = some i) then
          (linkOf d j).map (fun x => if link = none then 0 else (x + 1) % 256) else linkOf d j := by
      intro j
      rw [linkOf_set _ _ _ _ (countLink_index link)]
      unfold linkOf
      cases e : netifByIndex d.child.netifs j with
      | none => split <;> rfl
      | some x =>
        have hx := byIndex_index e
        rw [Option.map_some, Option.map_some, hx]
        by_cases hji : j = i
        · rw [if_pos hji, if_pos ⟨hji, hl'⟩]; rfl
        · rw [if_neg hji, if_neg (fun h => hji h.1)]
    have hfind : netifByIndex (d.set i (countLink link)).child.netifs i =
        (netifByIndex d.child.netifs i).map (countLink link) :=
      byIndex_set_eq _ _ _ (countLink_index link)
    generalize hd1 : d.set i (countLink link) = d1 at *
    rw [hfind] at h
    cases e : netifByIndex d.child.netifs i with
    | none =>
      rw [e] at h
      injection h with h
      subst h
      exact ⟨[], hs1, List.nil_sublist _, fun _ h => (nomatch h), fun _ => rfl, hlk⟩
    | some s0 =>
      rw [e] at h hfind
      dsimp only [Option.map_some] at h hfind ⊢
      generalize hs : countLink link s0 = s at *
      have hst : static s = static s0 := by rw [← hs]; rfl
      have hsk : sendSkip c s = sendSkip c s0 := by rw [← hs]; rfl
      have hsi : s.index = i := byIndex_index hfind
      rw [hsk] at h
      by_cases hskip : sendSkip c s0 = true
      · rw [if_pos hskip] at h
        injection h with h
        subst h
        exact ⟨[], hs1, List.nil_sublist _, fun _ h => (nomatch h), fun _ => by rw [if_pos hskip]; rfl, hlk⟩
      · rw [if_neg hskip] at h
        rw [if_neg hskip]
        -- the open request
        generalize hd2 : (if (c.opts.has OPT_RECV && s.protos == 0) = true then { d1 with opened := d1.opened ++ [i] } else d1) = d2 at h
        have hnet2 : d2.child = d1.child := by rw [← hd2]; split <;> rfl
        have hs2 : Sent d1 d2 [] := by
          refine ⟨?_, by rw [hnet2], by rw [hnet2]; exact fun h => h, ?_⟩
          · rw [← hd2]; split <;> rfl
          · rw [← hd2]; split <;> simp
        have hs3 : Sent d2 (d2.set i m) [] :=
          Sent.set d2 i _ (hm.static) (hm.mtu)
        have hs03 : Sent d (d2.set i m) [] := (hs1.trans hs2).trans hs3
        have hlk3 : ∀ j, linkOf (d2.set i m) j = linkOf d1 j := by
          intro j
          rw [linkOf_set _ _ _ _ (hm.index), hnet2]
          unfold linkOf
          cases netifByIndex d1.child.netifs j with
          | none => rfl
          | some x =>
            rw [Option.map_some, Option.map_some]
            split
            · rw [hm.linkEvent]
            · rfl
        have hmem3 : m s ∈ (d2.set i m).child.netifs := by
          have : netifByIndex (d2.set i m).child.netifs i = some (m s) := by
            unfold Daemon.set
            dsimp only
            rw [byIndex_set_eq _ _ _ (hm.index), hnet2, hfind]; rfl
          exact byIndex_mem this
        generalize d2.set i m = d3 at *
        by_cases hsend : c.opts.has OPT_SEND = true
        · have : (!c.opts.has OPT_SEND) = false := by rw [hsend]; rfl
          rw [this, if_neg Bool.false_ne_true] at h
          rw [if_pos hsend]
          obtain ⟨new, e4, hsub, hmem, hfull⟩ := sendAll_ok _ h
          have hs4 : Sent d3 d' new := by rw [e4]; exact ⟨rfl, rfl, fun h => h, rfl⟩
          have hidx : (m s).index = i := (hm.index s).trans hsi
          rw [hidx] at hsub hmem hfull
          refine ⟨[] ++ new, hs03.trans hs4, ?_, ?_, ?_, ?_⟩
          · exact hsub
          · intro t ht
            obtain ⟨ht1, ht2, ht3⟩ := hmem t ht
            obtain ⟨ps, hps, hips⟩ := hp
            refine ⟨n, m s, d3, [], hs03, hmem3, hn, ⟨ps, hps, by rw [hidx]; exact hips⟩, hsend, hk, ?_, ht2, rfl, rfl,
              by rw [ht1, hidx], ht3⟩
            have : sendSkip c (m s) = sendSkip c s0 := by
              rw [← sendSkip_static, hm.static, hst, sendSkip_static]
            rw [this]
            exact Bool.not_eq_true _ ▸ hskip
          · intro hb
            exact hfull (fun p seq => hb d3 [] _ hs03 hmem3 p seq)
          · intro j
            have : linkOf d' j = linkOf d3 j := by rw [e4]; rfl
            rw [this, hlk3, hlk]
        · have hsend' : c.opts.has OPT_SEND = false := Bool.not_eq_true _ ▸ hsend
          rw [hsend'] at h ⊢
          rw [Bool.not_false, if_pos rfl] at h
          injection h with h
          subst h
          exact ⟨[], hs03, List.nil_sublist _, fun _ h => (nomatch h), fun _ => rfl, fun j => by rw [hlk3, hlk]⟩

/-- The counter after `v` visits. -/
def bump (link : Option Nat) (v x : Nat) : Nat := if v = 0 then x else if link = none then 0 else (x + v) % 256

theorem bump_add (link : Option Nat) (v w x : Nat) : bump link w (bump link v x) = bump link (v + w) x := by
  unfold bump
  by_cases hw : w = 0
  · subst hw; simp
  · by_cases hv : v = 0
    · subst hv; simp
    · have hvw : ¬ v + w = 0 := by omega
      rw [if_neg hw, if_neg hv, if_neg hvw]
      split
      · rfl
      · omega

/-- The number of times the counter of `j` is touched if the ports `is` are visited. -/
def visits (link : Option Nat) (is : List Nat) (j : Nat) : Nat := if link = none ∨ link = some j then is.count j else 0

theorem visits_append (link : Option Nat) (a b : List Nat) (j : Nat) :
    visits link (a ++ b) j = visits link a j + visits link b j := by
  unfold visits
  split
  · exact List.count_append
  · rfl

/-- The ports of one interface. -/
theorem sendPorts_ok {c : Conf} {m : Netif → Netif} (hm : MediaFun m) {link : Option Nat} {n : Netif} (hk : sendSkip c n = false) :
    ∀ (is : List Nat) {d d' : Daemon}, (∃ x ∈ d.child.netifs, static x = static n) →
    (∃ ps, portIdx d.child.netifs n = .ok ps ∧ ∀ i ∈ is, i ∈ ps) → sendPorts c m link n is d = .ok d' →
    ∃ new, Sent d d' new ∧ (new.map key).Sublist (is.flatMap (planPort c link d.child.netifs n)) ∧ (∀ t ∈ new, Origin c d t) ∧
      (AllBuild c d → new.map key = is.flatMap (planPort c link d.child.netifs n)) ∧
      (∀ j, linkOf d' j = (linkOf d j).map (bump link (visits link is j))) := by
  intro is
  induction is with
  | nil =>
    intro d d' _ _ h
    injection h with h
    subst h
    refine ⟨[], Sent.refl _, List.nil_sublist _, fun _ h => (nomatch h), fun _ => rfl, ?_⟩
    intro j
    have : visits link [] j = 0 := by unfold visits; split <;> rfl
    rw [this]
    have : bump link 0 = id := by funext x; simp [bump]
    rw [this, Option.map_id]; rfl
  | cons i is ih =>
    intro d d' hn hp h
    simp only [sendPorts] at h
    cases h1 : sendPort c m link n d i with
    | ok d1 =>
      rw [h1] at h
      obtain ⟨ps, hps, his⟩ := hp
      obtain ⟨new1, s1, b1, o1, f1, l1⟩ := sendPort_ok hm hn ⟨ps, hps, his i List.mem_cons_self⟩ hk h1
      have hn1 : ∃ x ∈ d1.child.netifs, static x = static n := by
        obtain ⟨x, hx, e⟩ := hn
        have : static x ∈ d.child.netifs.map static := List.mem_map_of_mem hx
        rw [← s1.same] at this
        obtain ⟨y, hy, e'⟩ := List.mem_map.mp this
        exact ⟨y, hy, e'.trans e⟩
      have hp1 : portIdx d1.child.netifs n = .ok ps := by
        rw [← portIdx_static, s1.same, portIdx_static]; exact hps
      obtain ⟨new2, s2, b2, o2, f2, l2⟩ := ih hn1 ⟨ps, hp1, fun j hj => his j (List.mem_cons_of_mem _ hj)⟩ h
      have hplan : planPort c link d1.child.netifs n = planPort c link d.child.netifs n := by
        funext j; exact planPort_static s1.same rfl j
      rw [hplan] at b2 f2
      refine ⟨new1 ++ new2, s1.trans s2, ?_, ?_, ?_, ?_⟩
      · rw [List.map_append, List.flatMap_cons]
        exact b1.append b2
      · intro t ht
        rcases List.mem_append.mp ht with ht | ht
        · exact o1 t ht
        · exact (o2 t ht).after s1
      · intro hb
        rw [List.map_append, List.flatMap_cons, f1 hb, f2 (hb.after s1)]
      · intro j
        rw [l2, l1]
        have hv : visits link (i :: is) j = visits link [i] j + visits link is j := visits_append link [i] is j
        rw [hv]
        by_cases hji : j = i ∧ (link = none ∨ link = some i)
        · rw [if_pos hji, Option.map_map]
          have h1 : visits link [i] j = 1 := by
            unfold visits
            rw [hji.1, if_pos hji.2]
            simp
          rw [h1]
          apply congrFun
          apply congrArg
          funext x
          rw [← bump_add]
          show bump link (visits link is j) _ = bump link (visits link is j) (bump link 1 x)
          apply congrArg
          unfold bump
          rw [if_neg (by decide)]
        · rw [if_neg hji]
          have h1 : visits link [i] j = 0 := by
            unfold visits
            by_cases hl : link = none ∨ link = some j
            · rw [if_pos hl]
              have : j ≠ i := by
                intro e
                subst e
                exact hji ⟨rfl, hl⟩
              rw [List.count_singleton]
              rw [if_neg]
              simpa using this.symm
            · rw [if_neg hl]
          rw [h1, Nat.zero_add]
    | fail => rw [h1] at h; cases h
    | oob => rw [h1] at h; cases h
    | abort => rw [h1] at h; cases h
    | stuck => rw [h1] at h; cases h

/-- The ports handled for interface `i`. -/
def visit (c : Conf) (l : List Netif) (i : Nat) : List Nat :=
  match netifByIndex l i with
  | none => []
  | some n => if sendSkip c n then [] else okList (portIdx l n)

theorem visit_static {c : Conf} {l l' : List Netif} (h : l'.map static = l.map static) (i : Nat) :
    visit c l' i = visit c l i := by
  have key : ∀ l : List Netif, visit c (l.map static) i = visit c l i := by
    intro l
    unfold visit
    rw [byIndex_static]
    cases netifByIndex l i with
    | none => rfl
    | some s =>
      dsimp only [Option.map_some]
      rw [sendSkip_static, portIdx_static]
  rw [← key, h, key]

/-- All interfaces. -/
theorem sendNetifs_ok {c : Conf} {m : Netif → Netif} (hm : MediaFun m) {link : Option Nat} :
    ∀ (is : List Nat) {d d' : Daemon}, sendNetifs c m link is d = .ok d' →
    ∃ new, Sent d d' new ∧ (new.map key).Sublist (is.flatMap (planNetif c link d.child.netifs)) ∧ (∀ t ∈ new, Origin c d t) ∧
      (AllBuild c d → new.map key = is.flatMap (planNetif c link d.child.netifs)) ∧
      (∀ j, linkOf d' j = (linkOf d j).map (bump link (visits link (is.flatMap (visit c d.child.netifs)) j))) := by
  intro is
  induction is with
  | nil =>
    intro d d' h
    injection h with h
    subst h
    refine ⟨[], Sent.refl _, List.nil_sublist _, fun _ h => (nomatch h), fun _ => rfl, ?_⟩
    intro j
    have : visits link [] j = 0 := by unfold visits; split <;> rfl
    rw [List.flatMap_nil, this]
    have : bump link 0 = id := by funext x; simp [bump]
    rw [this, Option.map_id]; rfl
  | cons i is ih =>
    intro d d' h
    simp only [sendNetifs] at h
    cases e : netifByIndex d.child.netifs i with
    | none =>
      rw [e] at h
      obtain ⟨new, s, b, o, f, l⟩ := ih h
      have hp : planNetif c link d.child.netifs i = [] := by unfold planNetif; rw [e]
      have hv : visit c d.child.netifs i = [] := by unfold visit; rw [e]
      refine ⟨new, s, ?_, o, ?_, ?_⟩
      · rw [List.flatMap_cons, hp]; exact b
      · intro hb; rw [List.flatMap_cons, hp]; exact f hb
      · intro j; rw [List.flatMap_cons, hv]; exact l j
    | some n =>
      rw [e] at h
      dsimp only at h
      by_cases hk : sendSkip c n = true
      · rw [if_pos hk] at h
        obtain ⟨new, s, b, o, f, l⟩ := ih h
        have hp : planNetif c link d.child.netifs i = [] := by unfold planNetif; rw [e]; dsimp only; rw [if_pos hk]
        have hv : visit c d.child.netifs i = [] := by unfold visit; rw [e]; dsimp only; rw [if_pos hk]
        refine ⟨new, s, ?_, o, ?_, ?_⟩
        · rw [List.flatMap_cons, hp]; exact b
        · intro hb; rw [List.flatMap_cons, hp]; exact f hb
        · intro j; rw [List.flatMap_cons, hv]; exact l j
      · rw [if_neg hk] at h
        have hk' : sendSkip c n = false := Bool.not_eq_true _ ▸ hk
        cases hp : ports d.child.netifs n with
        | ok ps =>
          rw [hp] at h
          dsimp only [Res.bind] at h
          have hpi : portIdx d.child.netifs n = .ok (ps.map (·.index)) := by unfold portIdx; rw [hp]; rfl
          cases h1 : sendPorts c m link n (ps.map (·.index)) d with
          | ok d1 =>
            rw [h1] at h
            dsimp only at h
            obtain ⟨new1, s1, b1, o1, f1, l1⟩ := sendPorts_ok hm hk' _ ⟨n, byIndex_mem e, rfl⟩ ⟨_, hpi, fun _ h => h⟩ h1
            obtain ⟨new2, s2, b2, o2, f2, l2⟩ := ih h
            have hplan : planNetif c link d1.child.netifs = planNetif c link d.child.netifs := by
              funext j; exact planNetif_static s1.same j
            have hvis : visit c d1.child.netifs = visit c d.child.netifs := by
              funext j; exact visit_static s1.same j
            rw [hplan] at b2 f2
            rw [hvis] at l2
            have hpl : planNetif c link d.child.netifs i = (ps.map (·.index)).flatMap (planPort c link d.child.netifs n) := by
              unfold planNetif; rw [e]; dsimp only; rw [if_neg hk, hpi]; rfl
            have hv : visit c d.child.netifs i = ps.map (·.index) := by
              unfold visit; rw [e]; dsimp only; rw [if_neg hk, hpi]; rfl
            refine ⟨new1 ++ new2, s1.trans s2, ?_, ?_, ?_, ?_⟩
            · rw [List.map_append, List.flatMap_cons, hpl]
              exact b1.append b2
            · intro t ht
              rcases List.mem_append.mp ht with ht | ht
              · exact o1 t ht
              · exact (o2 t ht).after s1
            · intro hb
              rw [List.map_append, List.flatMap_cons, hpl, f1 hb, f2 (hb.after s1)]
            · intro j
              rw [l2, l1, Option.map_map, List.flatMap_cons, hv, visits_append]
              apply congrFun
              apply congrArg
              funext x
              exact bump_add _ _ _ _
          | fail => rw [h1] at h; cases h
          | oob => rw [h1] at h; cases h
          | abort => rw [h1] at h; cases h
          | stuck => rw [h1] at h; cases h
        | fail => rw [hp] at h; cases h
        | oob => rw [hp] at h; cases h
        | abort => rw [hp] at h; cases h
        | stuck => rw [hp] at h; cases h

/-! ## A round -/

theorem sendRound_ok {c : Conf} {k : Kernel} {m : Media} {link : Option Nat} {d d' : Daemon}
    (h : sendRound c k m link d = .ok d') :
    (d' = d ∧ ∃ i x, link = some i ∧ linkOf d i = some x ∧ x > 3) ∨
    (d' = (daemonFetch c k d).1 ∧ ((daemonFetch c k d).2 = 0 ∨ ∃ i, link = some i ∧ linkOf (daemonFetch c k d).1 i = none) ∧
      ∀ i x, link = some i → linkOf d i = some x → x ≤ 3) ∨
    ((daemonFetch c k d).2 ≠ 0 ∧ (∀ i x, link = some i → linkOf d i = some x → x ≤ 3) ∧
      (∀ i, link = some i → linkOf (daemonFetch c k d).1 i ≠ none) ∧
      sendNetifs c (netifMedia m) link ((netifTraverse c.opts (daemonFetch c k d).1.child.netifs).map (·.index)) (daemonFetch c k d).1 = .ok d') := by
  unfold sendRound at h
  dsimp only at h
  have hflap : flapping d link = true ↔ ∃ i x, link = some i ∧ linkOf d i = some x ∧ x > 3 := by
    unfold flapping linkOf
    cases link with
    | none => simp
    | some i =>
      dsimp only
      cases e : netifByIndex d.child.netifs i with
      | none => simp [e]
      | some n => simp [e]
  have hmiss : missing (daemonFetch c k d).1 link = true ↔
      ∃ i, link = some i ∧ linkOf (daemonFetch c k d).1 i = none := by
    unfold missing linkOf
    cases link with
    | none => simp
    | some i => simp
  by_cases hf : flapping d link = true
  · rw [if_pos hf] at h
    injection h with h
    exact Or.inl ⟨h.symm, hflap.mp hf⟩
  · rw [if_neg hf] at h
    have hle : ∀ i x, link = some i → linkOf d i = some x → x ≤ 3 := by
      intro i x hi hx
      apply Classical.byContradiction
      intro hn
      exact hf (hflap.mpr ⟨i, x, hi, hx, by omega⟩)
    by_cases h0 : (daemonFetch c k d).2 = 0
    · rw [if_pos h0] at h
      injection h with h
      exact Or.inr (Or.inl ⟨h.symm, Or.inl h0, hle⟩)
    · rw [if_neg h0] at h
      by_cases hm : missing (daemonFetch c k d).1 link = true
      · rw [if_pos hm] at h
        injection h with h
        exact Or.inr (Or.inl ⟨h.symm, Or.inr (hmiss.mp hm), hle⟩)
      · rw [if_neg hm] at h
        exact Or.inr (Or.inr ⟨h0, hle, fun i hi hn => hm (hmiss.mpr ⟨i, hi, hn⟩), h⟩)

end Ladvd
