import Verif.Lemmas.Run
/-!
# What a frame says about the interface

The loops of a round change an interface record only by counting link events and by asking for its link properties; every frame
is built after both.
-/

namespace Ladvd

/-- Another link event count. -/
def relink (le : Nat) (n : Netif) : Netif := { n with linkEvent := le }

theorem netifMedia_relink (m : Media) (le : Nat) (n : Netif) : netifMedia m (relink le n) = relink le (netifMedia m n) := by
  unfold netifMedia
  cases hb : m.bsd with
  | none =>
    unfold linuxMedia relink
    dsimp only
    split
    · unfold netifPhysical
      dsimp only
      cases m.ecmd n.index with
      | none => rfl
      | some e =>
        dsimp only
        split <;> rfl
    · rfl
  | some b => exact bsdMedia_linkEvent b le n

theorem getD_again (o : Option Nat) (x : Nat) : (o.map (· % 65536)).getD ((o.map (· % 65536)).getD x) = (o.map (· % 65536)).getD x := by
  cases o <;> rfl

/-- The reply about the link of an interface. -/
def linkReply (m : Media) (n : Netif) : Option Ecmd := if n.type = 0 then m.ecmd n.index else none

/-- Link properties from a reply. -/
def withReply (r : Option Ecmd) (n : Netif) : Netif :=
  { n with
    duplex := match r with | none => -1 | some e => if e.duplex = 1 then 1 else 0
    autonegSupported := match r with | none => -1 | some e => if e.supported.testBit 6 then 1 else 0
    autonegEnabled := match r with | none => -1 | some e => if e.supported.testBit 6 then (if e.autoneg = 1 then 1 else 0) else -1
    autonegPmd := match r with | none => 0 | some e => if e.supported.testBit 6 then pmdOf e.advertising else 0
    mau := match r with | none => 0 | some e => mauOf e }

/-- Another MTU. -/
def withMtu (x : Nat) (n : Netif) : Netif := { n with mtu := x }

theorem linuxMedia_eq (m : Media) (n : Netif) :
    linuxMedia m n = withReply (linkReply m n) (withMtu (((m.mtu n.name).map (· % 65536)).getD n.mtu) n) := by
  unfold linuxMedia linkReply
  dsimp only
  by_cases ht : n.type = 0
  · rw [if_pos ht, if_pos (show n.type = NETIF_REGULAR from ht)]
    unfold netifPhysical
    dsimp only
    cases m.ecmd n.index with
    | none => rfl
    | some e =>
      unfold withReply
      dsimp only
      by_cases h6 : e.supported.testBit 6 = true
      · simp only [if_pos h6]; rfl
      · simp only [if_neg h6]; rfl
  · rw [if_neg ht, if_neg (show ¬ n.type = NETIF_REGULAR from ht)]
    rfl

theorem linuxMedia_idem (m : Media) (n : Netif) : linuxMedia m (linuxMedia m n) = linuxMedia m n := by
  have h : ∀ r x y, withReply r (withMtu x (withReply r (withMtu y n))) = withReply r (withMtu x n) := fun _ _ _ => rfl
  have h1 : linkReply m (linuxMedia m n) = linkReply m n := by rw [linuxMedia_eq]; rfl
  have h2 : (linuxMedia m n).name = n.name := by rw [linuxMedia_eq]; rfl
  have h3 : (linuxMedia m n).mtu = ((m.mtu n.name).map (· % 65536)).getD n.mtu := by rw [linuxMedia_eq]; rfl
  rw [linuxMedia_eq m (linuxMedia m n), h1, h2, h3, getD_again, linuxMedia_eq m n, h]

theorem netifMedia_idem (m : Media) (n : Netif) : netifMedia m (netifMedia m n) = netifMedia m n := by
  unfold netifMedia
  cases hb : m.bsd with
  | none => exact linuxMedia_idem m n
  | some b => exact bsdMedia_idem b n

/-- What the loops do to the interface records. -/
def Drift (m : Media) (g : Netif → Netif) : Prop :=
  ∀ x, ∃ le, g x = relink le x ∨ g x = netifMedia m (relink le x)

theorem drift_id (m : Media) : Drift m id := fun x => ⟨x.linkEvent, Or.inl rfl⟩

theorem drift_comp {m : Media} {g f : Netif → Netif} (hf : Drift m f) (hg : Drift m g) : Drift m (f ∘ g) := by
  intro x
  obtain ⟨a, ha⟩ := hg x
  obtain ⟨b, hb⟩ := hf (g x)
  refine ⟨b, ?_⟩
  show f (g x) = _ ∨ f (g x) = _
  rcases ha with ha | ha <;> rcases hb with hb | hb <;> rw [hb, ha]
  · exact Or.inl rfl
  · exact Or.inr rfl
  · right; rw [netifMedia_relink, netifMedia_relink]; rfl
  · right; rw [← netifMedia_relink, netifMedia_idem]; rfl

theorem drift_set {m : Media} (i : Nat) {f : Netif → Netif} (hf : Drift m f) :
    Drift m (fun n => if n.index = i then f n else n) := by
  intro x
  dsimp only
  split
  · exact hf x
  · exact drift_id m x

theorem drift_count (m : Media) (link : Option Nat) : Drift m (countLink link) := fun _ => ⟨_, Or.inl rfl⟩

theorem drift_media (m : Media) : Drift m (netifMedia m) := fun x => ⟨x.linkEvent, Or.inr rfl⟩

theorem drift_static {m : Media} {g : Netif → Netif} (h : Drift m g) (x : Netif) : static (g x) = static x := by
  obtain ⟨le, e | e⟩ := h x
  · rw [e]; rfl
  · rw [e, netifMedia_static]; rfl

theorem media_drift {m : Media} {g : Netif → Netif} (h : Drift m g) (x : Netif) :
    ∃ le, netifMedia m (g x) = netifMedia m (relink le x) := by
  obtain ⟨le, e | e⟩ := h x
  · exact ⟨le, by rw [e]⟩
  · exact ⟨le, by rw [e, netifMedia_idem]⟩

/-- The state differs by the loops. -/
def Moved (m : Media) (d d1 : Daemon) : Prop :=
  d1.rest = d.rest ∧ ∃ g, Drift m g ∧ d1.child.netifs = d.child.netifs.map g

theorem Moved.refl (m : Media) (d : Daemon) : Moved m d d := ⟨rfl, id, drift_id m, by simp⟩

theorem Moved.trans {m : Media} {d d1 d2 : Daemon} (h : Moved m d d1) (h2 : Moved m d1 d2) : Moved m d d2 := by
  obtain ⟨r1, g1, hg1, e1⟩ := h
  obtain ⟨r2, g2, hg2, e2⟩ := h2
  exact ⟨r2.trans r1, g2 ∘ g1, drift_comp hg2 hg1, by rw [e2, e1, List.map_map]⟩

theorem Moved.set {m : Media} (d : Daemon) (i : Nat) {f : Netif → Netif} (hf : Drift m f) : Moved m d (d.set i f) :=
  ⟨rfl, _, drift_set i hf, rfl⟩

/-- Interface and port a message was sent for, and the data it was built from. -/
def Source (c : Conf) (m : Media) (d : Daemon) (t : Tx) : Prop :=
  ∃ n ∈ d.child.netifs, ∃ s ∈ d.child.netifs, ∃ le seq msg d1, Moved m d d1 ∧ s.index = t.index ∧
    (∃ ps, portIdx d.child.netifs n = .ok ps ∧ s.index ∈ ps) ∧ wanted c n t.proto = true ∧
    t.proto.build (List.replicate ETHER_MAX_LEN 0) (pktEnv c d1 (netifMedia m (relink le s))) seq = .ok (msg, t.len) ∧ t.len ≠ 0 ∧
    t.msg = (if n.bondingMode = 2 ∧ s.child ≠ 1 then msg.take 6 ++ List.replicate 6 0 ++ msg.drop 12 else msg)

theorem static_protos {a b : Netif} (h : static a = static b) : a.protos = b.protos := congrArg (·.protos) h
theorem static_mode {a b : Netif} (h : static a = static b) : a.bondingMode = b.bondingMode := congrArg (·.bondingMode) h
theorem static_child {a b : Netif} (h : static a = static b) : a.child = b.child := congrArg (·.child) h
theorem static_idx {a b : Netif} (h : static a = static b) : a.index = b.index := congrArg (·.index) h
theorem static_parent {a b : Netif} (h : static a = static b) : a.parent = b.parent := congrArg (·.parent) h

theorem drift_map_static {m : Media} {g : Netif → Netif} (h : Drift m g) (l : List Netif) : (l.map g).map static = l.map static := by
  rw [List.map_map]
  exact List.map_congr_left (fun x _ => drift_static h x)

theorem Source.after {c : Conf} {m : Media} {d d1 : Daemon} {t : Tx} (h : Moved m d d1) (ho : Source c m d1 t) : Source c m d t := by
  obtain ⟨n1, hn1, s1, hs1, le, seq, msg, d2, h2, hi, ⟨ps, hp, hip⟩, hw, hb, hl, hm⟩ := ho
  obtain ⟨r, g, hg, e⟩ := id h
  rw [e] at hn1 hs1
  obtain ⟨n, hn, rfl⟩ := List.mem_map.mp hn1
  obtain ⟨s, hs, rfl⟩ := List.mem_map.mp hs1
  have en := drift_static hg n
  have es := drift_static hg s
  obtain ⟨le', hle⟩ := media_drift (m := m) (g := relink le ∘ g) (drift_comp (fun x => ⟨le, Or.inl rfl⟩) hg) s
  have hle : netifMedia m (relink le (g s)) = netifMedia m (relink le' s) := hle
  refine ⟨n, hn, s, hs, le', seq, msg, d2, h.trans h2, ?_, ⟨ps, ?_, ?_⟩, ?_, ?_, hl, ?_⟩
  · rw [← static_idx es]; exact hi
  · rw [← portIdx_static, ← en, ← drift_map_static hg, ← e, portIdx_static]; exact hp
  · rw [← static_idx es]; exact hip
  · unfold wanted at hw ⊢; rw [← static_protos en]; exact hw
  · rw [← hle]; exact hb
  · rw [hm, static_mode en, static_child es]

theorem sendPort_source {c : Conf} {m : Media} {link : Option Nat} {n : Netif} {d d' : Daemon} {i : Nat}
    (hn : ∃ x ∈ d.child.netifs, static x = static n) (hp : ∃ ps, portIdx d.child.netifs n = .ok ps ∧ i ∈ ps)
    (h : sendPort c (netifMedia m) link n d i = .ok d') :
    ∃ new, d'.tx = d.tx ++ new ∧ Moved m d d' ∧ ∀ t ∈ new, Source c m d t := by
  unfold sendPort at h
  by_cases hl : link ≠ none ∧ link ≠ some i
  · rw [if_pos hl] at h
    injection h with h
    subst h
    exact ⟨[], by simp, Moved.refl _ _, fun _ h => nomatch h⟩
  rw [if_neg hl] at h
  dsimp only at h
  have hs1 : Moved m d (d.set i (countLink link)) := Moved.set d i (drift_count m link)
  have hfind : netifByIndex (d.set i (countLink link)).child.netifs i =
      (netifByIndex d.child.netifs i).map (countLink link) :=
    byIndex_set_eq _ _ _ (countLink_index link)
  have htx1 : (d.set i (countLink link)).tx = d.tx := rfl
  generalize hd1 : d.set i (countLink link) = d1 at *
  rw [hfind] at h
  cases e : netifByIndex d.child.netifs i with
  | none =>
    rw [e] at h
    injection h with h
    subst h
    exact ⟨[], by simp [htx1], hs1, fun _ h => nomatch h⟩
  | some s0 =>
    rw [e] at h
    dsimp only [Option.map_some] at h
    split at h
    · injection h with h
      subst h
      exact ⟨[], by simp [htx1], hs1, fun _ h => nomatch h⟩
    generalize hd2 : (if (c.opts.has OPT_RECV && (countLink link s0).protos == 0) = true then
      { d1 with opened := d1.opened ++ [i] } else d1) = d2 at h
    have hnet2 : d2.child = d1.child := by rw [← hd2]; split <;> rfl
    have hs2 : Moved m d1 d2 := by
      refine ⟨?_, id, drift_id m, by rw [hnet2]; simp⟩
      rw [← hd2]; split <;> rfl
    have htx2 : d2.tx = d1.tx := by rw [← hd2]; split <;> rfl
    have hs3 : Moved m d2 (d2.set i (netifMedia m)) := Moved.set d2 i (drift_media m)
    have h03 := (hs1.trans hs2).trans hs3
    have htx3 : (d2.set i (netifMedia m)).tx = d.tx := htx2.trans htx1
    generalize d2.set i (netifMedia m) = d3 at *
    split at h
    · injection h with h
      subst h
      exact ⟨[], by simp [htx3], h03, fun _ h => nomatch h⟩
    obtain ⟨new, e4, -, hnew, -⟩ := sendAll_ok _ h
    have hs0 : s0 ∈ d.child.netifs := byIndex_mem e
    have hi : s0.index = i := byIndex_index e
    refine ⟨new, ?_, ?_, ?_⟩
    · rw [e4]; simp [htx3]
    · refine h03.trans ⟨by rw [e4]; rfl, id, drift_id m, by rw [e4]; simp⟩
    · intro t ht
      obtain ⟨hti, hw, seq, msg, hb, hlen, hmsg⟩ := hnew t ht
      obtain ⟨x, hx, hxn⟩ := hn
      obtain ⟨ps, hps, hip⟩ := hp
      have est : static (netifMedia m (countLink link s0)) = static s0 := netifMedia_static _ _
      refine ⟨x, hx, s0, hs0, _, seq, msg, d3, h03, ?_, ⟨ps, ?_, ?_⟩, ?_, hb, hlen, ?_⟩
      · rw [hti]; exact (static_idx est).symm
      · rw [← portIdx_static, hxn, portIdx_static]; exact hps
      · rw [hi]; exact hip
      · unfold wanted at hw ⊢; rw [static_protos hxn]; exact hw
      · rw [hmsg, static_mode hxn, static_child est]

theorem sendPorts_source {c : Conf} {m : Media} {link : Option Nat} {n : Netif} : ∀ (is : List Nat) {d d' : Daemon},
    (∃ x ∈ d.child.netifs, static x = static n) → (∃ ps, portIdx d.child.netifs n = .ok ps ∧ ∀ i ∈ is, i ∈ ps) →
    sendPorts c (netifMedia m) link n is d = .ok d' →
    ∃ new, d'.tx = d.tx ++ new ∧ Moved m d d' ∧ ∀ t ∈ new, Source c m d t := by
  intro is
  induction is with
  | nil =>
    intro d d' _ _ h
    injection h with h
    subst h
    exact ⟨[], by simp, Moved.refl _ _, fun _ h => nomatch h⟩
  | cons i is ih =>
    intro d d' hn hp h
    obtain ⟨ps, hps, hall⟩ := hp
    simp only [sendPorts] at h
    cases h1 : sendPort c (netifMedia m) link n d i with
    | ok d1 =>
      rw [h1] at h
      obtain ⟨a, ta, ma, ha⟩ := sendPort_source hn ⟨ps, hps, hall i (List.mem_cons_self ..)⟩ h1
      obtain ⟨-, g, hg, eg⟩ := id ma
      have hst : d1.child.netifs.map static = d.child.netifs.map static := by rw [eg]; exact drift_map_static hg _
      obtain ⟨b, tb, mb, hb⟩ := ih (d := d1) (by
        obtain ⟨x, hx, hxn⟩ := hn
        exact ⟨g x, by rw [eg]; exact List.mem_map_of_mem hx, (drift_static hg x).trans hxn⟩)
        ⟨ps, by rw [← portIdx_static, hst, portIdx_static]; exact hps, fun j hj => hall j (List.mem_cons_of_mem _ hj)⟩ h
      refine ⟨a ++ b, by rw [tb, ta, List.append_assoc], ma.trans mb, fun t ht => ?_⟩
      rcases List.mem_append.mp ht with ht | ht
      · exact ha t ht
      · exact (hb t ht).after ma
    | fail => rw [h1] at h; cases h
    | oob => rw [h1] at h; cases h
    | abort => rw [h1] at h; cases h
    | stuck => rw [h1] at h; cases h

theorem sendNetifs_source {c : Conf} {m : Media} {link : Option Nat} : ∀ (is : List Nat) {d d' : Daemon},
    sendNetifs c (netifMedia m) link is d = .ok d' →
    ∃ new, d'.tx = d.tx ++ new ∧ Moved m d d' ∧ ∀ t ∈ new, Source c m d t := by
  intro is
  induction is with
  | nil =>
    intro d d' h
    injection h with h
    subst h
    exact ⟨[], by simp, Moved.refl _ _, fun _ h => nomatch h⟩
  | cons i is ih =>
    intro d d' h
    simp only [sendNetifs] at h
    cases e : netifByIndex d.child.netifs i with
    | none => rw [e] at h; exact ih h
    | some n =>
      rw [e] at h
      dsimp only at h
      split at h
      · exact ih h
      cases hp : ports d.child.netifs n with
      | ok ps =>
        rw [hp] at h
        simp only [Res.bind_ok] at h
        cases h1 : sendPorts c (netifMedia m) link n (ps.map (·.index)) d with
        | ok d1 =>
          rw [h1] at h
          obtain ⟨a, ta, ma, ha⟩ := sendPorts_source _ ⟨n, byIndex_mem e, rfl⟩
            ⟨ps.map (·.index), by unfold portIdx; rw [hp]; rfl, fun i hi => hi⟩ h1
          obtain ⟨b, tb, mb, hb⟩ := ih h
          refine ⟨a ++ b, by rw [tb, ta, List.append_assoc], ma.trans mb, fun t ht => ?_⟩
          rcases List.mem_append.mp ht with ht | ht
          · exact ha t ht
          · exact (hb t ht).after ma
        | fail => rw [h1] at h; cases h
        | oob => rw [h1] at h; cases h
        | abort => rw [h1] at h; cases h
        | stuck => rw [h1] at h; cases h
      | fail => rw [hp] at h; cases h
      | oob => rw [hp] at h; cases h
      | abort => rw [hp] at h; cases h
      | stuck => rw [hp] at h; cases h

theorem sendRound_source {c : Conf} {k : Kernel} {m : Media} {link : Option Nat} {d d' : Daemon} (h : sendRound c k m link d = .ok d') :
    ∃ new, d'.tx = d.tx ++ new ∧ ∀ t ∈ new, Source c m (daemonFetch c k d).1 t := by
  unfold sendRound at h
  split at h
  · injection h with h
    subst h
    exact ⟨[], by simp, fun _ h => nomatch h⟩
  dsimp only at h
  have htx : (daemonFetch c k d).1.tx = d.tx := rfl
  split at h
  · injection h with h
    subst h
    exact ⟨[], by simp [htx], fun _ h => nomatch h⟩
  split at h
  · injection h with h
    subst h
    exact ⟨[], by simp [htx], fun _ h => nomatch h⟩
  obtain ⟨a, ta, -, ha⟩ := sendNetifs_source _ h
  exact ⟨a, by rw [ta, htx], ha⟩

end Ladvd
