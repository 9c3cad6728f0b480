import Verif.Lemmas.Source
import Verif.Spec.Link
import Verif.Lemmas.BsdLink
import Verif.Lemmas.Keep
import Verif.Props.Packet
/-!
# Link properties
-/

namespace Ladvd

open Spec

theorem pmdOf_bit (adv i : Nat) : (pmdOf adv).testBit i = true ↔ ∃ a, (a, i) ∈ pmdRows ∧ adv.testBit a = true := by
  have key : ∀ (T : List (Nat × Nat)) (acc : Nat),
      (T.foldl (fun acc (x : Nat × Nat) => if adv.testBit x.1 then acc ||| (1 <<< x.2) else acc) acc).testBit i = true ↔
      acc.testBit i = true ∨ ∃ a, (a, i) ∈ T ∧ adv.testBit a = true := by
    intro T
    induction T with
    | nil => intro acc; simp
    | cons x T ih =>
      intro acc
      rw [List.foldl_cons, ih]
      have hb : (acc ||| 1 <<< x.2).testBit i = true ↔ acc.testBit i = true ∨ i = x.2 := by
        rw [Nat.testBit_or, Nat.one_shiftLeft, Nat.testBit_two_pow]
        simp only [Bool.or_eq_true, decide_eq_true_eq]
        exact or_congr Iff.rfl ⟨Eq.symm, Eq.symm⟩
      constructor
      · rintro (h | ⟨a, ha, h⟩)
        · by_cases hx : adv.testBit x.1 = true
          · rw [if_pos hx, hb] at h
            rcases h with h | h
            · exact Or.inl h
            · exact Or.inr ⟨x.1, by rw [h]; exact List.mem_cons_self, hx⟩
          · rw [if_neg hx] at h; exact Or.inl h
        · exact Or.inr ⟨a, List.mem_cons_of_mem _ ha, h⟩
      · rintro (h | ⟨a, ha, h⟩)
        · left
          split
          · rw [hb]; exact Or.inl h
          · exact h
        · rcases List.mem_cons.mp ha with e | ha
          · left
            rw [← e, if_pos h, Nat.testBit_or, Nat.one_shiftLeft, Nat.testBit_two_pow]
            simp
          · exact Or.inr ⟨a, ha, h⟩
  have := key pmdTable 0
  rw [Nat.zero_testBit] at this
  simp only [Bool.false_eq_true, false_or] at this
  exact this

/-- `mauOf` by cable. -/
def mauBy : Option Medium → Nat → Bool → Nat
  | some .twistedPair, speed, fd => mauTP speed fd
  | some .fibre, speed, fd => mauFibre speed fd
  | some .thinCoax, speed, _ => if speed = 10 then 4 else 0
  | some .aui, _, _ => 1
  | some .directAttach, speed, _ => if speed = 10000 then 41 else 0
  | none, _, _ => 0

theorem mauOf_by (e : Ecmd) : mauOf e = mauBy (mediumOf e) e.speed (decide (e.duplex = 1)) := by
  have hd : (e.duplex == 1) = decide (e.duplex = 1) := rfl
  unfold mauOf mediumOf
  rw [hd]
  generalize e.port = port
  match port with
  | 0 => rfl
  | 1 => rfl
  | 2 => by_cases h7 : e.advertising.testBit 7 = true <;> simp [h7, mauBy]
  | 3 => rfl
  | 4 => rfl
  | 5 => rfl
  | n + 6 => rfl

theorem mauBy_rows (M : Option Medium) (speed : Nat) (fd : Bool) :
    (∀ r ∈ mauRows, (M = some r.1 ∧ (∀ s ∈ r.2.1, speed = s) ∧ (∀ f ∈ r.2.2.1, fd = f)) → mauBy M speed fd = r.2.2.2) ∧
    ((∀ r ∈ mauRows, ¬ (M = some r.1 ∧ (∀ s ∈ r.2.1, speed = s) ∧ (∀ f ∈ r.2.2.1, fd = f))) → mauBy M speed fd = 0) := by
  unfold mauRows
  simp only [List.forall_mem_cons, List.not_mem_nil, false_imp_iff, implies_true, and_true, Option.mem_def, Option.some.injEq,
    forall_eq', reduceCtorEq]
  rcases M with _ | M
  · exact ⟨by simp, fun _ => rfl⟩
  · cases M <;> cases fd <;>
      simp only [mauBy, mauTP, mauFibre, reduceCtorEq, false_and, true_and, and_false, and_true, false_imp_iff, true_imp_iff,
        not_false_eq_true, not_true_eq_false, Bool.false_eq_true, if_true, if_false, Option.some.injEq] <;>
      grind

theorem mauOf_rows (e : Ecmd) :
    (∀ r ∈ mauRows, rowFits e r → mauOf e = r.2.2.2) ∧ ((∀ r ∈ mauRows, ¬ rowFits e r) → mauOf e = 0) := by
  rw [mauOf_by]
  exact mauBy_rows _ _ _

theorem linuxMedia_is (m : Media) (le : Nat) (n : Netif) : LinuxLinkIs m n (linuxMedia m (relink le n)) := by
  rw [linuxMedia_eq]
  have hr : linkReply m (relink le n) = if n.type = 0 then m.ecmd n.index else none := rfl
  have hm : ((m.mtu (relink le n).name).map (· % 65536)).getD (relink le n).mtu = match m.mtu n.name with | some v => v % 65536 | none => n.mtu := by
    show ((m.mtu n.name).map (· % 65536)).getD n.mtu = _
    cases m.mtu n.name <;> rfl
  rw [hr, hm]
  have hans : ∀ e, n.type = 0 → m.ecmd n.index = some e → (if n.type = 0 then m.ecmd n.index else none) = some e := by
    intro e h h'; rw [if_pos h, h']
  refine ⟨rfl, rfl, ?_, ?_, ?_, ?_, ?_, ?_, ?_⟩
  · intro h
    have : (if n.type = 0 then m.ecmd n.index else none) = none := by
      rcases h with h | h
      · rw [if_neg h]
      · rw [h]; split <;> rfl
    rw [this]
    exact ⟨rfl, rfl, rfl, rfl, rfl⟩
  · intro e h h'; rw [hans e h h']; rfl
  · intro e h h'; rw [hans e h h']; rfl
  · intro e h h' h6; rw [hans e h h']; unfold withReply; dsimp only; rw [if_pos h6]
  · intro e h h' h6; rw [hans e h h']; unfold withReply; dsimp only; rw [h6]; exact ⟨rfl, rfl⟩
  · intro e h h' h6; rw [hans e h h']; unfold withReply; dsimp only; rw [if_pos h6]; exact pmdOf_bit e.advertising
  · intro e h h'; rw [hans e h h']; exact mauOf_rows e

theorem netifMedia_is (m : Media) (le : Nat) (n : Netif) : LinkIs m n (netifMedia m (relink le n)) := by
  refine ⟨?_, ?_, ?_⟩
  · unfold netifMedia
    cases hb : m.bsd with
    | none => exact (linuxMedia_is m le n).same
    | some b => exact (bsdMedia_is b (relink le n)).same
  · intro h
    unfold netifMedia
    rw [h]
    exact linuxMedia_is m le n
  · intro b h
    unfold netifMedia
    rw [h]
    obtain ⟨h1, h2, h3, h4, h5, h6, h7, h8, h9⟩ := bsdMedia_is b (relink le n)
    exact ⟨h1, h2, h3, h4, h5, h6, h7, h8, h9⟩

theorem Moved.sent {m : Media} {d d1 : Daemon} (h : Moved m d d1) {a : List Tx} (ht : d1.tx = d.tx ++ a) : Sent d d1 a := by
  obtain ⟨hr, g, hg, e⟩ := h
  refine ⟨hr, by rw [e]; exact drift_map_static hg _, ?_, ht⟩
  intro hm n hn
  rw [e] at hn
  obtain ⟨x, hx, rfl⟩ := List.mem_map.mp hn
  obtain ⟨le, e' | e'⟩ := hg x
  · rw [e']; exact hm x hx
  · rw [e']; exact netifMedia_mtu m _ (hm x hx)

/-! ## Sequence numbers -/

/-- The EDP frames of a list are numbered from `q` on, and the next number is `q'`. -/
def Serial (q q' : Nat) (new : List Tx) : Prop :=
  q' = (q + (edpNumbers new).length) % 65536 ∧
  edpNumbers new = (List.range (edpNumbers new).length).map (fun j => (q + j) % 65536)

theorem Serial.nil {q : Nat} (h : q < 65536) : Serial q q [] := ⟨(Nat.mod_eq_of_lt h).symm, rfl⟩

theorem edpNumbers_append (a b : List Tx) : edpNumbers (a ++ b) = edpNumbers a ++ edpNumbers b := by
  unfold edpNumbers; rw [List.filter_append, List.map_append]

theorem Serial.append {q q1 q2 : Nat} {a b : List Tx} (h1 : Serial q q1 a) (h2 : Serial q1 q2 b) : Serial q q2 (a ++ b) := by
  unfold Serial at *
  rw [edpNumbers_append, List.length_append]
  refine ⟨?_, ?_⟩
  · rw [h2.1, h1.1]; omega
  · rw [List.range_add, List.map_append, ← h1.2, List.map_map]
    congr 1
    refine h2.2.trans (List.map_congr_left ?_)
    intro j _
    show (q1 + j) % 65536 = (q + ((edpNumbers a).length + j)) % 65536
    rw [h1.1]; omega

theorem getD_zeroed {msg : Bytes} (hl : 12 ≤ msg.length) {i : Nat} (hi : 12 ≤ i) :
    (msg.take 6 ++ List.replicate 6 0 ++ msg.drop 12).getD i 0 = msg.getD i 0 := by
  have h1 : (msg.take 6 ++ List.replicate 6 (0 : UInt8)).length = 12 := by simp; omega
  rw [List.getD_eq_getElem?_getD, List.getD_eq_getElem?_getD, List.getElem?_append_right (by omega), h1, List.getElem?_drop]
  congr 2
  omega

theorem edp_number {e : PktEnv} (h : EnvOk e) {seq len : Nat} {msg : Bytes}
    (hb : Proto.edp.build (List.replicate ETHER_MAX_LEN 0) e seq = .ok (msg, len)) : edpNumber msg = seq % 65536 ∧ 12 ≤ msg.length := by
  have hb : edpPacket (List.replicate ETHER_MAX_LEN 0) e seq = .ok (msg, len) := hb
  obtain ⟨k0, k1, p, hp, -, hf⟩ := Props.C38_edp _ _ _ _ e h (by rw [List.length_replicate]; decide) hb
  have hw : e.nif.hwaddr.length = 6 := h.1.2.2.2.2.2.1
  have hch := chassisAddr_length h
  obtain ⟨a0, a1, a2, a3, a4, a5, ha⟩ : ∃ a0 a1 a2 a3 a4 a5, e.nif.hwaddr = [a0, a1, a2, a3, a4, a5] := by
    match e.nif.hwaddr, hw with
    | [a0, a1, a2, a3, a4, a5], _ => exact ⟨a0, a1, a2, a3, a4, a5, rfl⟩
  rw [ha] at hf
  have h28 : (msg.take len).getD 28 0 = UInt8.ofNat (seq / 256) := by rw [hf, hp]; rfl
  have h29 : (msg.take len).getD 29 0 = UInt8.ofNat seq := by rw [hf, hp]; rfl
  have hlen : 30 ≤ (msg.take len).length := by rw [hf, hp]; simp [be16]
  have hg : ∀ i, i < 30 → (msg.take len).getD i 0 = msg.getD i 0 := by
    intro i hi
    rw [List.length_take] at hlen
    rw [List.getD_eq_getElem?_getD, List.getD_eq_getElem?_getD, List.getElem?_take_of_lt (by omega)]
  refine ⟨?_, ?_⟩
  · unfold edpNumber
    rw [← hg 28 (by omega), ← hg 29 (by omega), h28, h29]
    have := beNat_be16 seq
    simpa [beNat, be16] using this
  · rw [List.length_take] at hlen; omega

/-- Frames can be built, from well formed data. -/
def Speaks (c : Conf) (d : Daemon) : Prop :=
  ∀ d1 a s, Sent d d1 a → s ∈ d1.child.netifs → EnvOk (pktEnv c d1 s) ∧ ∀ (p : Proto) (seq : Nat),
    ∃ r, p.build (List.replicate ETHER_MAX_LEN 0) (pktEnv c d1 s) seq = .ok r ∧ r.2 ≠ 0

theorem Speaks.after {c : Conf} {d d1 : Daemon} {a : List Tx} (h : Sent d d1 a) (hb : Speaks c d) : Speaks c d1 :=
  fun d2 b s h2 hs => hb d2 (a ++ b) s (h.trans h2) hs

theorem sendOne_serial {c : Conf} {n s : Netif} {d d' : Daemon} {p : Proto} (he : EnvOk (pktEnv c d s))
    (hb : ∀ (p : Proto) seq, ∃ r, p.build (List.replicate ETHER_MAX_LEN 0) (pktEnv c d s) seq = .ok r ∧ r.2 ≠ 0)
    (hq : d.seq < 65536) (h : sendOne c n s d p = .ok d') :
    ∃ new, d' = { d with seq := d'.seq, tx := d.tx ++ new } ∧ Serial d.seq d'.seq new := by
  unfold sendOne at h
  split at h
  · injection h with h
    subst h
    exact ⟨[], by simp, Serial.nil hq⟩
  dsimp only at h
  obtain ⟨⟨msg, len⟩, hr, hl⟩ := hb p d.seq
  rw [hr] at h
  dsimp only at h hl
  rw [if_neg hl] at h
  injection h with h
  subst h
  refine ⟨_, rfl, ?_⟩
  unfold Serial
  by_cases hp : p = .edp
  · subst hp
    obtain ⟨hn, h12⟩ := edp_number he hr
    have hone : ∀ x : Bytes, edpNumber x = edpNumber msg → edpNumbers [⟨s.index, .edp, len, x⟩] = [d.seq] := by
      intro x hx
      show [edpNumber x] = _
      rw [hx, hn, Nat.mod_eq_of_lt hq]
    rw [hone]
    · exact ⟨rfl, by simp [Nat.mod_eq_of_lt hq]⟩
    · split
      · unfold edpNumber
        rw [getD_zeroed h12 (by omega), getD_zeroed h12 (by omega)]
      · rfl
  · have : ∀ x : Bytes, edpNumbers [⟨s.index, p, len, x⟩] = [] := by
      intro x
      unfold edpNumbers
      rw [List.filter_cons, if_neg (by simpa using hp)]
      rfl
    rw [this]
    unfold nextSeq
    rw [if_neg hp]
    exact Serial.nil hq

theorem sendAll_serial {c : Conf} {n s : Netif} : ∀ (ps : List Proto) {d d' : Daemon}, EnvOk (pktEnv c d s) →
    (∀ (p : Proto) seq, ∃ r, p.build (List.replicate ETHER_MAX_LEN 0) (pktEnv c d s) seq = .ok r ∧ r.2 ≠ 0) →
    d.seq < 65536 → sendAll c n s ps d = .ok d' →
    ∃ new, d'.tx = d.tx ++ new ∧ Serial d.seq d'.seq new := by
  intro ps
  induction ps with
  | nil =>
    intro d d' _ _ hq h
    injection h with h
    subst h
    exact ⟨[], by simp, Serial.nil hq⟩
  | cons p ps ih =>
    intro d d' he hb hq h
    simp only [sendAll] at h
    cases h1 : sendOne c n s d p with
    | ok d1 =>
      rw [h1] at h
      obtain ⟨a, e1, s1⟩ := sendOne_serial he hb hq h1
      have henv : pktEnv c d1 s = pktEnv c d s := by rw [e1]; rfl
      obtain ⟨b, e2, s2⟩ := ih (henv ▸ he) (by rw [henv]; exact hb) (by rw [s1.1]; exact Nat.mod_lt _ (by decide)) h
      exact ⟨a ++ b, by rw [e2, e1, List.append_assoc], s1.append s2⟩
    | fail => rw [h1] at h; cases h
    | oob => rw [h1] at h; cases h
    | abort => rw [h1] at h; cases h
    | stuck => rw [h1] at h; cases h

theorem sendPort_serial {c : Conf} {m : Media} {link : Option Nat} {n : Netif} {d d' : Daemon} {i : Nat} (hb : Speaks c d)
    (hq : d.seq < 65536) (h : sendPort c (netifMedia m) link n d i = .ok d') :
    ∃ new, d'.tx = d.tx ++ new ∧ Serial d.seq d'.seq new := by
  unfold sendPort at h
  split at h
  · injection h with h
    subst h
    exact ⟨[], by simp, Serial.nil hq⟩
  dsimp only at h
  have hs1 : Moved m d (d.set i (countLink link)) := Moved.set d i (drift_count m link)
  have htx1 : (d.set i (countLink link)).tx = d.tx := rfl
  have hq1 : (d.set i (countLink link)).seq = d.seq := rfl
  generalize d.set i (countLink link) = d1 at *
  cases e : netifByIndex d1.child.netifs i with
  | none =>
    rw [e] at h
    injection h with h
    subst h
    exact ⟨[], by simp [htx1], by rw [hq1]; exact Serial.nil hq⟩
  | some s =>
    rw [e] at h
    dsimp only at h
    split at h
    · injection h with h
      subst h
      exact ⟨[], by simp [htx1], by rw [hq1]; exact Serial.nil hq⟩
    generalize hd2 : (if (c.opts.has OPT_RECV && s.protos == 0) = true then
      { d1 with opened := d1.opened ++ [i] } else d1) = d2 at h
    have hnet2 : d2.child = d1.child := by rw [← hd2]; split <;> rfl
    have hs2 : Moved m d1 d2 := by
      refine ⟨?_, id, drift_id m, by rw [hnet2]; simp⟩
      rw [← hd2]; split <;> rfl
    have htx2 : d2.tx = d1.tx := by rw [← hd2]; split <;> rfl
    have hq2 : d2.seq = d1.seq := by rw [← hd2]; split <;> rfl
    have hs3 : Moved m d2 (d2.set i (netifMedia m)) := Moved.set d2 i (drift_media m)
    have h03 := (hs1.trans hs2).trans hs3
    have htx3 : (d2.set i (netifMedia m)).tx = d.tx := htx2.trans htx1
    have hq3 : (d2.set i (netifMedia m)).seq = d.seq := hq2.trans hq1
    have hmem : netifMedia m s ∈ (d2.set i (netifMedia m)).child.netifs := by
      refine byIndex_mem (i := i) ?_
      show netifByIndex (setNetif d2.child.netifs i (netifMedia m)) i = _
      rw [byIndex_set_eq _ _ _ (netifMedia_index m), hnet2, e]
      rfl
    generalize d2.set i (netifMedia m) = d3 at *
    split at h
    · injection h with h
      subst h
      exact ⟨[], by simp [htx3], by rw [hq3]; exact Serial.nil hq⟩
    obtain ⟨he, hbb⟩ := hb d3 [] _ (h03.sent (by simp [htx3])) hmem
    obtain ⟨new, ht, hsr⟩ := sendAll_serial _ he hbb (hq3 ▸ hq) h
    exact ⟨new, by rw [ht, htx3], hq3 ▸ hsr⟩

theorem sendPorts_serial {c : Conf} {m : Media} {link : Option Nat} {n : Netif} : ∀ (is : List Nat) {d d' : Daemon},
    (∃ x ∈ d.child.netifs, static x = static n) → (∃ ps, portIdx d.child.netifs n = .ok ps ∧ ∀ i ∈ is, i ∈ ps) →
    Speaks c d → d.seq < 65536 → sendPorts c (netifMedia m) link n is d = .ok d' →
    ∃ new, d'.tx = d.tx ++ new ∧ Serial d.seq d'.seq new := by
  intro is
  induction is with
  | nil =>
    intro d d' _ _ _ hq h
    injection h with h
    subst h
    exact ⟨[], by simp, Serial.nil hq⟩
  | cons i is ih =>
    intro d d' hn hp hb hq h
    obtain ⟨ps, hps, hall⟩ := hp
    simp only [sendPorts] at h
    cases h1 : sendPort c (netifMedia m) link n d i with
    | ok d1 =>
      rw [h1] at h
      obtain ⟨a, ta, ma, -⟩ := sendPort_source hn ⟨ps, hps, hall i (List.mem_cons_self ..)⟩ h1
      obtain ⟨a', ta', sa⟩ := sendPort_serial hb hq h1
      have : a' = a := List.append_cancel_left (ta'.symm.trans ta)
      subst this
      have hs := ma.sent ta
      obtain ⟨-, g, hg, eg⟩ := id ma
      obtain ⟨b, tb, sb⟩ := ih (d := d1) (by
        obtain ⟨x, hx, hxn⟩ := hn
        exact ⟨g x, by rw [eg]; exact List.mem_map_of_mem hx, (drift_static hg x).trans hxn⟩)
        ⟨ps, by rw [← portIdx_static, hs.same, portIdx_static]; exact hps, fun j hj => hall j (List.mem_cons_of_mem _ hj)⟩
        (hb.after hs) (by rw [sa.1]; exact Nat.mod_lt _ (by decide)) h
      exact ⟨a' ++ b, by rw [tb, ta, List.append_assoc], sa.append sb⟩
    | fail => rw [h1] at h; cases h
    | oob => rw [h1] at h; cases h
    | abort => rw [h1] at h; cases h
    | stuck => rw [h1] at h; cases h

theorem sendNetifs_serial {c : Conf} {m : Media} {link : Option Nat} : ∀ (is : List Nat) {d d' : Daemon},
    Speaks c d → d.seq < 65536 → sendNetifs c (netifMedia m) link is d = .ok d' →
    ∃ new, d'.tx = d.tx ++ new ∧ Serial d.seq d'.seq new := by
  intro is
  induction is with
  | nil =>
    intro d d' _ hq h
    injection h with h
    subst h
    exact ⟨[], by simp, Serial.nil hq⟩
  | cons i is ih =>
    intro d d' hb hq h
    simp only [sendNetifs] at h
    cases e : netifByIndex d.child.netifs i with
    | none => rw [e] at h; exact ih hb hq h
    | some n =>
      rw [e] at h
      dsimp only at h
      split at h
      · exact ih hb hq h
      cases hp : ports d.child.netifs n with
      | ok ps =>
        rw [hp] at h
        simp only [Res.bind_ok] at h
        cases h1 : sendPorts c (netifMedia m) link n (ps.map (·.index)) d with
        | ok d1 =>
          rw [h1] at h
          have hx : ∃ x ∈ d.child.netifs, static x = static n := ⟨n, byIndex_mem e, rfl⟩
          have hy : ∃ qs, portIdx d.child.netifs n = .ok qs ∧ ∀ i ∈ ps.map (·.index), i ∈ qs :=
            ⟨ps.map (·.index), by unfold portIdx; rw [hp]; rfl, fun i hi => hi⟩
          obtain ⟨a, ta, ma, -⟩ := sendPorts_source _ hx hy h1
          obtain ⟨a', ta', sa⟩ := sendPorts_serial _ hx hy hb hq h1
          have : a' = a := List.append_cancel_left (ta'.symm.trans ta)
          subst this
          obtain ⟨b, tb, sb⟩ := ih (hb.after (ma.sent ta)) (by rw [sa.1]; exact Nat.mod_lt _ (by decide)) h
          exact ⟨a' ++ b, by rw [tb, ta, List.append_assoc], sa.append sb⟩
        | fail => rw [h1] at h; cases h
        | oob => rw [h1] at h; cases h
        | abort => rw [h1] at h; cases h
        | stuck => rw [h1] at h; cases h
      | fail => rw [hp] at h; cases h
      | oob => rw [hp] at h; cases h
      | abort => rw [hp] at h; cases h
      | stuck => rw [hp] at h; cases h

theorem sendRound_serial {c : Conf} {k : Kernel} {m : Media} {link : Option Nat} {d d' : Daemon} (hb : Speaks c (daemonFetch c k d).1)
    (hq : d.seq < 65536) (h : sendRound c k m link d = .ok d') :
    ∃ new, d'.tx = d.tx ++ new ∧ Serial d.seq d'.seq new := by
  unfold sendRound at h
  split at h
  · injection h with h
    subst h
    exact ⟨[], by simp, Serial.nil hq⟩
  dsimp only at h
  have htx : (daemonFetch c k d).1.tx = d.tx := rfl
  have hs : (daemonFetch c k d).1.seq = d.seq := rfl
  split at h
  · injection h with h
    subst h
    exact ⟨[], by simp [htx], Serial.nil hq⟩
  split at h
  · injection h with h
    subst h
    exact ⟨[], by simp [htx], Serial.nil hq⟩
  exact sendNetifs_serial (d := (daemonFetch c k d).1) _ hb hq h

end Ladvd
