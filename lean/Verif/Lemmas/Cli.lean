import Verif.Model.Cli
import Verif.Spec.Cli
import Verif.Props.PeerText
import Verif.Props.Queue
/-!
# Lemmas for the command line client
-/

namespace Ladvd

open Spec Props

/-- Apply to the result. -/
def Res.map {α β : Type} (f : α → β) : Res α → Res β
  | .ok a => .ok (f a)
  | .fail => .fail
  | .oob => .oob
  | .abort => .abort
  | .stuck => .stuck

theorem lldpChassisId_ttl (m : Bytes) (print : Bool) (c : Cur) (s : Msg) (a : Nat) :
    lldpChassisId m print c { s with ttl := a } = (lldpChassisId m print c s).map (fun s => { s with ttl := a }) := by
  unfold lldpChassisId
  split; · rfl
  split; · rfl
  simp only [Res.bind_eq]
  cases grab m 1 c with
  | ok x =>
    simp only [Res.bind_ok]
    split
    · cases tlvStrCopy m x.2.pos x.2.length <;> rfl
    split
    · cases tlvStrAddr PEER_ADDR_802 m x.2.pos x.2.length <;> rfl
    split
    · cases grab m 1 x.2 with
      | ok y => simp only [Res.bind_ok]; cases tlvStrAddr y.1 m y.2.pos y.2.length <;> rfl
      | _ => rfl
    · rfl
  | _ => rfl

theorem lldpPortId_ttl (m : Bytes) (print : Bool) (c : Cur) (s : Msg) (a : Nat) :
    lldpPortId m print c { s with ttl := a } = (lldpPortId m print c s).map (fun s => { s with ttl := a }) := by
  unfold lldpPortId
  split; · rfl
  simp only [Res.bind_eq]
  cases grab m 1 c with
  | ok x =>
    simp only [Res.bind_ok]
    split
    · cases tlvStrCopy m x.2.pos x.2.length <;> cases print <;> rfl
    split
    · cases print <;> cases tlvStrAddr PEER_ADDR_802 m x.2.pos x.2.length <;> rfl
    · rfl
  | _ => rfl

theorem Res.map_bind {α β γ : Type} (x : Res α) (f : α → β) (g : β → Res γ) : (x.map f).bind g = x.bind (fun a => g (f a)) := by
  cases x <;> rfl

theorem decode_ttl (p : Proto) (print : Bool) (m : Bytes) (len : Nat) (s : Msg) (a : Nat) :
    p.decode print m len { s with ttl := a } = p.decode print m len s := by
  cases p
  · show lldpDecode print m len _ = lldpDecode print m len _
    unfold lldpDecode
    simp only [Res.bind_eq, lldpChassisId_ttl, lldpPortId_ttl, Res.map_bind]
  all_goals rfl

/-! ## What decoding leaves alone -/

/-- Lifetime and protocol are not touched by a TLV, and nothing is printed unless asked for. -/
structure Same (print : Bool) (s s' : Msg) : Prop where
  ttl : s'.ttl = s.ttl
  proto : s'.proto = s.proto
  out : print = false → s'.out = s.out

theorem Same.rfl' (print : Bool) (s : Msg) : Same print s s := ⟨rfl, rfl, fun _ => rfl⟩

theorem Same.trans {print : Bool} {a b c : Msg} (h : Same print a b) (g : Same print b c) : Same print a c :=
  ⟨g.ttl.trans h.ttl, g.proto.trans h.proto, fun e => (g.out e).trans (h.out e)⟩

theorem showOr_same (print : Bool) (txt : Bytes) (g : Peer → Peer) (s : Msg) : Same print s (showOr print txt g s) := by
  cases print
  · exact ⟨rfl, rfl, fun _ => rfl⟩
  · exact ⟨rfl, rfl, fun h => nomatch h⟩

theorem showAddr_same (fam : Nat) (v : Bytes) (s : Msg) : Same true s (showAddr fam v s) := by
  unfold showAddr
  split
  · exact ⟨rfl, rfl, fun h => nomatch h⟩
  · exact Same.rfl' _ _

theorem foldlM_same {α : Type} {print : Bool} {g : Msg → α → Option Msg} (hg : ∀ s a s', g s a = some s' → Same print s s')
    (l : List α) : ∀ {s s' : Msg}, l.foldlM g s = some s' → Same print s s' := by
  induction l with
  | nil => intro s s' h; cases h; exact Same.rfl' _ _
  | cons a l ih =>
    intro s s' h
    rw [List.foldlM_cons] at h
    cases hb : g s a with
    | none => rw [hb] at h; cases h
    | some b => rw [hb] at h; exact (hg s a b hb).trans (ih h)

theorem foldl_same {α : Type} {g : Msg → α → Msg} (hg : ∀ s a, Same false s (g s a))
    (l : List α) : ∀ (s : Msg), Same false s (l.foldl g s) := by
  induction l with
  | nil => intro s; exact Same.rfl' _ _
  | cons a l ih => intro s; exact (hg s a).trans (ih _)

theorem addrMeaning_same {print : Bool} (s : Msg) (e : AddrEntry) (s' : Msg) (h : addrMeaning print s e = some s') : Same print s s' := by
  unfold addrMeaning at h
  repeat' split at h
  all_goals (cases h)
  all_goals (first | exact showOr_same _ _ _ _ | exact Same.rfl' _ _)

theorem textOut_same (print : Bool) (s : Msg) (t : List Bytes) :
    Same print s (if print then { s with out := s.out ++ t } else s) := by
  cases print
  · exact Same.rfl' _ _
  · exact ⟨rfl, rfl, fun h => nomatch h⟩

theorem cdpMeaning_same {print : Bool} (s : Msg) (t : Tlv) (s' : Msg) (h : cdpMeaning print s t = some s') : Same print s s' := by
  unfold cdpMeaning at h
  dsimp only at h
  split at h
  all_goals (try split at h)
  all_goals first
    | (cases h; done)
    | (cases h; exact showOr_same _ _ _ _)
    | (cases h; exact textOut_same _ _ _)
    | (cases h; exact Same.rfl' _ _)
    | (next hp => cases h; exact ⟨rfl, rfl, fun e => by rw [hp] at e; cases e⟩)
    | skip
  all_goals
    (next v _ =>
      cases he : addrEntries (addrLimit (beNat (List.take 4 t.2))) (List.drop 4 t.2) with
      | none => rw [he] at h; cases h
      | some es => rw [he] at h; exact foldlM_same addrMeaning_same es h)

theorem fdpMeaning_same (s : Msg) (t : Tlv) : Same false s (fdpMeaning s t) := by
  unfold fdpMeaning
  split <;> exact ⟨rfl, rfl, fun _ => rfl⟩

theorem edpMeaning_same (s : Msg) (t : UInt8 × Tlv) : Same false s (edpMeaning s t) := by
  unfold edpMeaning
  split <;> exact ⟨rfl, rfl, fun _ => rfl⟩

theorem chassisMeaning_same {print : Bool} {s s' : Msg} {v : Bytes} (h : chassisMeaning print s v = some s') : Same print s s' := by
  unfold chassisMeaning at h
  cases print
  all_goals (repeat' split at h)
  all_goals (first | (exfalso; simp at *; done) | skip)
  all_goals (cases h)
  all_goals first
    | exact Same.rfl' _ _
    | exact showAddr_same _ _ _
    | exact ⟨rfl, rfl, fun h => nomatch h⟩

theorem portMeaning_same {print : Bool} {s s' : Msg} {v : Bytes} (h : portMeaning print s v = some s') : Same print s s' := by
  unfold portMeaning at h
  cases print
  all_goals (repeat' split at h)
  all_goals (first | (exfalso; simp at *; done) | skip)
  all_goals (cases h)
  all_goals first
    | exact Same.rfl' _ _
    | exact showAddr_same _ _ _
    | exact showOr_same _ _ _ _

theorem mgmtMeaning_same {print : Bool} {s s' : Msg} {v : Bytes} (h : mgmtMeaning print s v = some s') : Same print s s' := by
  unfold mgmtMeaning at h
  dsimp only at h
  repeat' split at h
  all_goals (cases h)
  all_goals first
    | exact Same.rfl' _ _
    | exact showOr_same _ _ _ _

theorem orgMeaning_same {print : Bool} {s s' : Msg} {v : Bytes} (h : orgMeaning print s v = some s') : Same print s s' := by
  unfold orgMeaning at h
  repeat' split at h
  all_goals (cases h)
  all_goals first
    | exact Same.rfl' _ _
    | exact showOr_same _ _ _ _

theorem lldpMeaning_same {print : Bool} (s : Msg) (t : Tlv) (s' : Msg) (h : lldpMeaning print s t = some s') : Same print s s' := by
  unfold lldpMeaning at h
  dsimp only at h
  split at h; · cases h
  split at h
  · split at h; · cases h
    split at h; · cases h
    cases h
    cases print
    · exact ⟨rfl, rfl, fun _ => rfl⟩
    · exact ⟨rfl, rfl, fun h => nomatch h⟩
  split at h; · cases h; exact showOr_same _ _ _ _
  split at h; · cases h; exact textOut_same _ _ _
  split at h
  · repeat' split at h
    all_goals (cases h)
    · next hp => exact ⟨rfl, rfl, fun h => by rw [hp] at h; cases h⟩
    · exact ⟨rfl, rfl, fun _ => rfl⟩
  split at h; · exact mgmtMeaning_same h
  split at h; · exact orgMeaning_same h
  split at h; · cases h
  cases h; exact Same.rfl' _ _

/-! ## Whole frames -/

theorem cdp_wire {print : Bool} {f pad : Bytes} {s m : Msg} {n : Nat} (h1 : 26 ≤ f.length) (h2 : f.length ≤ 1518)
    (h : cdpDecode print (f ++ pad) f.length s = .ok (m, n)) :
    ∃ ver t k0 k1 rest, CdpFrame f ([ver, t, k0, k1] ++ rest) ∧ m.ttl = t.toNat ∧ m.proto = (if ver = 1 then 5 else 1) ∧
      (print = false → m.out = s.out) := by
  obtain ⟨_, pl, hf, ver, ttl, k0, k1, ts, rfl, _, _, hm⟩ := (C36_cdp print f pad s m n h1 h2).mp h
  have := foldlM_same (print := print) cdpMeaning_same ts hm
  exact ⟨ver, ttl, k0, k1, _, hf, this.ttl, this.proto, this.out⟩

/-- The lifetime, the protocol and the output after a successful decoding. -/
theorem decode_wire {p : Proto} {print : Bool} {f pad : Bytes} {s m : Msg} {n : Nat} (h1 : 26 ≤ f.length) (h2 : f.length ≤ 1518)
    (hp : 2 ≤ pad.length) (h : p.decode print (f ++ pad) f.length s = .ok (m, n)) :
    Announces p f m.ttl ∧ (p ≠ .cdp → p ≠ .cdp1 → m.proto = s.proto) ∧ (print = false → m.out = s.out) := by
  cases p with
  | lldp =>
    obtain ⟨pdu, tr, hf, ⟨ch, po, t0, t1, ts, s1, s2, rfl, hw, m1, m2, m3⟩, _⟩ :=
      (C09_accept_iff print f pad s m n (by omega) h2 hp).mp h
    have a1 := chassisMeaning_same m1
    have a2 := portMeaning_same m2
    have a3 := foldlM_same (print := print) lldpMeaning_same ts m3
    refine ⟨⟨ch, po, t0, t1, lldpEnc (ts ++ [(0, [])]) ++ tr, (hw (1, ch) (by simp)).2, (hw (2, po) (by simp)).2, ?_, a3.ttl⟩, fun _ _ => ?_, fun e => ?_⟩
    · simpa [lldpEnc, List.append_assoc] using hf
    · rw [a3.proto, a2.proto, a1.proto]
    · rw [a3.out e]; show s2.out = _; rw [a2.out e, a1.out e]
  | cdp =>
    obtain ⟨ver, t, k0, k1, r, a, b, _, c⟩ := cdp_wire h1 h2 h
    exact ⟨⟨ver, t, k0, k1, r, a, b⟩, fun h => absurd rfl h, c⟩
  | cdp1 =>
    obtain ⟨ver, t, k0, k1, r, a, b, _, c⟩ := cdp_wire h1 h2 h
    exact ⟨⟨ver, t, k0, k1, r, a, b⟩, fun _ h => absurd rfl h, c⟩
  | fdp =>
    obtain ⟨_, pl, hf, ttl, k0, k1, ts, rfl, _, rfl⟩ := (C36_fdp f pad s m n h1 h2).mp h
    have := foldl_same fdpMeaning_same ts { s with ttl := ttl.toNat }
    exact ⟨⟨ttl, k0, k1, _, hf, this.ttl⟩, fun _ _ => this.proto, fun _ => this.out rfl⟩
  | edp =>
    obtain ⟨_, pl, hf, hdr, ts, rfl, _, _, rfl⟩ := (C36_edp f pad s m n h1 h2).mp h
    have := foldl_same edpMeaning_same ts { s with ttl := 180 }
    exact ⟨this.ttl, fun _ _ => this.proto, fun _ => this.out rfl⟩
  | ndp =>
    obtain ⟨rfl, _⟩ := (C36_ndp f pad s m n h1 h2).mp h
    exact ⟨rfl, fun _ _ => rfl, fun _ => rfl⟩

/-! ## The loop -/

/-- The entry is one the command line asks for and of an acceptable size. -/
theorem clientMsg_cases (c : CliConf) (now : Int) (st : CliSt) (e : CliIn) :
    (¬ Selected c e ∧ clientMsg c now st e = .ok (st, [], none)) ∨
    ∃ p, Selected c e ∧ Proto.ofNum e.proto = some p ∧ clientMsg c now st e =
      (match p.decode (c.mode == .print) (e.msg ++ [if c.mode == .print then 2 else 1, 0]) e.len.toNat
          { proto := e.proto, ttl := st.ttl, peer := st.peer } with
      | .abort => .abort
      | .oob => .oob
      | .stuck => .stuck
      | .fail => .ok ({}, [], none)
      | .ok (m, n) => if n = 0 then .ok ({}, [], none) else cliShow now e m) := by
  unfold clientMsg
  split
  · next hp =>
    left
    refine ⟨fun h => ?_, rfl⟩
    have h := h.proto
    have : ∀ n < 6, Proto.ofNum n ≠ none := by decide
    exact this _ h hp
  next p hp =>
  have h6 : e.proto < 6 := by
    rcases Nat.lt_or_ge e.proto 6 with h | h
    · exact h
    · exfalso
      obtain ⟨k, hk⟩ : ∃ k, e.proto = k + 6 := ⟨e.proto - 6, by omega⟩
      rw [hk] at hp
      cases hp
  split
  · next hl =>
    left
    refine ⟨fun h => ?_, rfl⟩
    have := h.size
    simp only [ETHER_MIN_LEN, ETHER_MAX_LEN] at hl
    omega
  next hl =>
  split
  · next hw =>
    left
    refine ⟨fun h => ?_, rfl⟩
    have := h.index
    unfold cliWants at hw
    cases hi : c.indexes with
    | none => rw [hi] at hw; cases hw
    | some l => rw [hi] at hw; have := this l hi; simp [this] at hw
  next hw =>
  split
  · next hb =>
    left
    refine ⟨fun h => ?_, rfl⟩
    have := h.wanted
    rw [this] at hb; cases hb
  next hb =>
  right
  refine ⟨p, ⟨h6, ?_, ?_, ?_⟩, hp, rfl⟩
  · simp only [ETHER_MIN_LEN, ETHER_MAX_LEN] at hl; omega
  · intro l hi
    unfold cliWants at hw
    rw [hi] at hw
    simpa using hw
  · simpa using hb

theorem split_msg {e : CliIn} (hm : e.msg.length = 1518) (hs : 60 ≤ e.len ∧ e.len ≤ 1518) (x : Bytes) :
    e.msg ++ x = e.msg.take e.len.toNat ++ (e.msg.drop e.len.toNat ++ x) ∧ (e.msg.take e.len.toNat).length = e.len.toNat := by
  constructor
  · rw [← List.append_assoc, List.take_append_drop]
  · rw [List.length_take]; omega

/-- A selected entry that decodes announces the lifetime the decoder reports. -/
theorem decode_announces {c : CliConf} {e : CliIn} {p : Proto} {print : Bool} {x : Bytes} {s m : Msg} {n : Nat}
    (hm : e.msg.length = 1518) (hs : Selected c e) (hx : x.length = 2) (h : p.decode print (e.msg ++ x) e.len.toNat s = .ok (m, n)) :
    Announces p (e.msg.take e.len.toNat) m.ttl ∧ (p ≠ .cdp → p ≠ .cdp1 → m.proto = s.proto) ∧ (print = false → m.out = s.out) := by
  obtain ⟨h1, h2⟩ := split_msg hm hs.size x
  rw [h1] at h
  have h3 := hs.size
  have := decode_wire (f := e.msg.take e.len.toNat) (pad := e.msg.drop e.len.toNat ++ x) (s := s) (m := m) (n := n) (p := p)
    (print := print) (by omega) (by omega) (by simp; omega) (by rw [h2]; exact h)
  exact this

/-- After an entry that has not expired nothing is left behind. -/
theorem clientMsg_clean {c : CliConf} {now : Int} {e : CliIn} (hm : e.msg.length = 1518) (hu : ¬ Expired now e) {st' : CliSt}
    {texts : List Bytes} {s : Option Shown} (h : clientMsg c now {} e = .ok (st', texts, s)) : st' = {} := by
  rcases clientMsg_cases c now {} e with ⟨_, h'⟩ | ⟨p, hs, hp, h'⟩
  · rw [h'] at h; cases h; rfl
  · rw [h'] at h
    split at h
    · cases h
    · cases h
    · cases h
    · cases h; rfl
    · next m n hd =>
      split at h
      · cases h; rfl
      · have := (decode_announces hm hs (by simp) hd).1
        unfold cliShow at h
        split at h
        · next he =>
          exact absurd ⟨p, m.ttl, hp, this, he⟩ hu
        · unfold rd at h
          split at h
          · cases h; rfl
          · cases h

/-! ## Entries of the daemon's table -/

theorem queuePut_all {P : Entry → Prop} (hP : ∀ e i l, P e → P { e with id := i, lock := l }) {q : List Entry} {e : Entry}
    (hq : ∀ x ∈ q, P x) (he : P e) : ∀ x ∈ queuePut q e, P x := by
  intro x hx
  rcases queuePut_cases q e with ⟨l1, o, l2, h1, h2, _, h4⟩ | ⟨hn, l1, l2, h1, h2, _, _⟩
  · rw [h4] at hx
    rw [h1] at hq
    rcases List.mem_append.mp hx with hx | hx
    · exact hq x (List.mem_append_left _ hx)
    · rcases List.mem_cons.mp hx with rfl | hx
      · exact hP e o.id e.lock he
      · exact hq x (List.mem_append_right _ (List.mem_cons_of_mem _ hx))
  · rw [h2] at hx
    rw [h1] at hq
    rcases List.mem_append.mp hx with hx | hx
    · exact hq x (List.mem_append_left _ hx)
    · rcases List.mem_cons.mp hx with rfl | hx
      · exact he
      · exact hq x (List.mem_append_right _ hx)

theorem setLock_all {P : Entry → Prop} (hP : ∀ e i l, P e → P { e with id := i, lock := l }) {q : List Entry} (hq : ∀ x ∈ q, P x)
    (i : Nat) (f : Nat → Nat) : ∀ x ∈ setLock q i f, P x := by
  intro x hx
  unfold setLock at hx
  obtain ⟨y, hy, rfl⟩ := List.mem_map.mp hx
  split
  · exact hP y y.id _ (hq y hy)
  · exact hq y hy

theorem cliLoop_mem (q : List Entry) : ∀ (ws : List WriteRes), ∀ x ∈ (cliLoop q ws).2, x ∈ q := by
  induction q with
  | nil =>
    intro ws x hx
    unfold cliLoop at hx
    cases hx
  | cons e q ih =>
    intro ws x hx
    cases ws with
    | nil => unfold cliLoop at hx; first | (cases hx; done) | (dsimp only at hx; cases hx)
    | cons w ws =>
      cases w with
      | ok =>
        unfold cliLoop at hx
        rcases List.mem_cons.mp hx with rfl | hx
        · exact List.mem_cons_self
        · exact List.mem_cons_of_mem _ (ih _ x hx)
      | err => unfold cliLoop at hx; cases hx
      | again => unfold cliLoop at hx; cases hx

/-- Something true of everything stored is true of the table and of all that was sent to clients. -/
theorem entries_step {o : Opts} {op : ChildOp} {st st' : Child} {P : Entry → Prop}
    (hP : ∀ e i l, P e → P { e with id := i, lock := l })
    (hput : ∀ t r subif m, op = .recv (some t) r → Taken st t r subif m → P (entryOf st t r subif m))
    (hq : ∀ e ∈ st.queue, P e) (hs : ∀ x ∈ st.sent, P x.2) (h : childStep o st op = .ok st') :
    (∀ e ∈ st'.queue, P e) ∧ ∀ x ∈ st'.sent, P x.2 := by
  cases op with
  | recv now r =>
    rcases childQueue_frame h with ⟨rfl, _⟩ | ⟨t, subif, m, rfl, ht, e, _, _, e3⟩
    · exact ⟨hq, hs⟩
    · have := queuePut_all hP hq (hput t r subif m rfl ht)
      rw [e3]
      refine ⟨?_, hs⟩
      rw [e]
      split
      · intro x hx; exact this x (List.mem_filter.mp hx).1
      · exact this
  | expire now =>
    obtain ⟨e, _, _, e3⟩ := childExpire_frame h
    rw [e, e3]
    exact ⟨fun x hx => hq x (List.mem_filter.mp hx).1, hs⟩
  | fetch l => cases h; exact ⟨hq, hs⟩
  | accept => cases h; exact ⟨hq, hs⟩
  | write sid ws =>
    rcases cliWrite_frame h with ⟨rfl, -⟩ | ⟨sess, hse, -, ⟨-, rfl⟩ | ⟨wl, queue, suffix, -, hst, h⟩⟩
    · exact ⟨hq, hs⟩
    · exact ⟨hq, hs⟩
    · have hb : (∀ x ∈ queue, P x) ∧ ∀ x ∈ suffix, P x := by
        rcases cliStart_spec hst with ⟨_, e1, e2⟩ | ⟨id, pre, _, e1, e2, _⟩
        · rw [e1, e2]; exact ⟨hq, hq⟩
        · have : ∀ x ∈ queue, P x := by rw [e1]; exact setLock_all hP hq _ _
          exact ⟨this, fun x hx => this x (by rw [e2]; exact List.mem_append_right _ hx)⟩
      have hsent : ∀ x ∈ st.sent ++ (cliLoop suffix wl).2.map (fun e => (sid, e)), P x.2 := by
        intro x hx
        rcases List.mem_append.mp hx with hx | hx
        · exact hs x hx
        · obtain ⟨y, hy, rfl⟩ := List.mem_map.mp hx
          exact hb.2 y (cliLoop_mem _ _ _ hy)
      rcases h with ⟨x, -, rfl⟩ | ⟨-, rfl⟩
      · exact ⟨setLock_all hP hb.1 _ _, hsent⟩
      · exact ⟨hb.1, hsent⟩

theorem entries_run {o : Opts} {P : Entry → Prop} (hP : ∀ e i l, P e → P { e with id := i, lock := l }) {ops : List ChildOp} :
    ∀ {st st' : Child}, (∀ st t r subif m, ChildOp.recv (some t) r ∈ ops → Taken st t r subif m → P (entryOf st t r subif m)) →
    (∀ e ∈ st.queue, P e) → (∀ x ∈ st.sent, P x.2) → childRun o st ops = .ok st' →
    (∀ e ∈ st'.queue, P e) ∧ ∀ x ∈ st'.sent, P x.2 := by
  induction ops with
  | nil => intro st st' _ hq hs h; cases h; exact ⟨hq, hs⟩
  | cons op ops ih =>
    intro st st' hput hq hs h
    rw [childRun] at h
    cases he : childStep o st op with
    | ok s =>
      rw [he] at h
      obtain ⟨a, b⟩ := entries_step hP (fun t r subif m ho ht => hput st t r subif m (by rw [ho]; exact List.mem_cons_self) ht) hq hs he
      exact ih (fun st t r subif m hm ht => hput st t r subif m (List.mem_cons_of_mem _ hm) ht) a b h
    | fail => rw [he] at h; cases h
    | oob => rw [he] at h; cases h
    | abort => rw [he] at h; cases h
    | stuck => rw [he] at h; cases h

/-- Decoding the stored frame again gives what is stored. -/
structure Decodes (e : Entry) : Prop where
  msg : e.msg.length = 1518
  len : e.len ≤ 1518
  dec : ∃ p m n, Proto.ofNum e.proto = some p ∧ p.decode false (e.msg ++ [1, 0]) e.len { proto := e.proto } = .ok (m, n) ∧ n ≠ 0 ∧
    m.proto = e.proto ∧ m.ttl = e.ttl ∧ m.peer = e.peer

theorem cdpDecode_proto (print : Bool) (m : Bytes) (len : Nat) (s : Msg) (a : Nat) :
    cdpDecode print m len { s with proto := a } = cdpDecode print m len s := rfl

theorem Proto.ofNum_num {n : Nat} {p : Proto} (h : Proto.ofNum n = some p) : n = p.num := by
  unfold Proto.ofNum at h
  split at h
  all_goals (cases h)
  all_goals rfl

theorem taken_decodes {st : Child} {t : Int} {r : RawMsg} {subif : Netif} {m : Msg} (hm : r.msg.length = 1518) (hl : 26 ≤ r.len)
    (h : Taken st t r subif m) : Decodes (entryOf st t r subif m) := by
  obtain ⟨p, n, hp, hd, hn⟩ := h.proto
  have hlen := h.len
  have h0 := hd
  simp only [ETHER_MAX_LEN] at hlen
  have e1 : r.msg ++ [1, 0] = r.msg.take r.len.toNat ++ (r.msg.drop r.len.toNat ++ [1, 0]) := by
    rw [← List.append_assoc, List.take_append_drop]
  have e2 : (r.msg.take r.len.toNat).length = r.len.toNat := by rw [List.length_take]; omega
  rw [e1] at hd
  have hw := decode_wire (f := r.msg.take r.len.toNat) (pad := r.msg.drop r.len.toNat ++ [1, 0]) (by omega) (by omega)
    (by rw [List.length_append]; exact Nat.le_add_left _ _) (by rw [e2]; exact hd)
  refine ⟨hm, by show r.len.toNat ≤ 1518; omega, ?_⟩
  have hcdp : ∀ s : Msg, cdpDecode false (r.msg ++ [1, 0]) r.len.toNat { proto := r.proto } = .ok (m, n) →
      ∃ p m' n', Proto.ofNum m.proto = some p ∧ p.decode false (r.msg ++ [1, 0]) r.len.toNat { proto := m.proto } = .ok (m', n') ∧ n' ≠ 0 ∧
        m'.proto = m.proto ∧ m'.ttl = m.ttl ∧ m'.peer = m.peer := by
    intro s hd
    have hd' := hd
    rw [e1] at hd'
    obtain ⟨ver, _, _, _, _, _, _, hpr, _⟩ := cdp_wire (f := r.msg.take r.len.toNat) (by omega) (by omega) (by rw [e2]; exact hd')
    by_cases hv : ver = 1
    · rw [if_pos hv] at hpr
      refine ⟨.cdp1, m, n, by rw [hpr]; rfl, ?_, hn, rfl, rfl, rfl⟩
      rw [← hd]; rfl
    · rw [if_neg hv] at hpr
      refine ⟨.cdp, m, n, by rw [hpr]; rfl, ?_, hn, rfl, rfl, rfl⟩
      rw [← hd]; rfl
  cases p with
  | cdp => exact hcdp {} h0
  | cdp1 => exact hcdp {} h0
  | lldp => have h3 := hw.2.1 (by decide) (by decide); exact ⟨.lldp, m, n, by rw [← hp]; exact congrArg _ h3, by show Proto.decode _ _ _ _ { proto := m.proto } = _; rw [h3]; exact h0, hn, rfl, rfl, rfl⟩
  | edp => have h3 := hw.2.1 (by decide) (by decide); exact ⟨.edp, m, n, by rw [← hp]; exact congrArg _ h3, by show Proto.decode _ _ _ _ { proto := m.proto } = _; rw [h3]; exact h0, hn, rfl, rfl, rfl⟩
  | fdp => have h3 := hw.2.1 (by decide) (by decide); exact ⟨.fdp, m, n, by rw [← hp]; exact congrArg _ h3, by show Proto.decode _ _ _ _ { proto := m.proto } = _; rw [h3]; exact h0, hn, rfl, rfl, rfl⟩
  | ndp => have h3 := hw.2.1 (by decide) (by decide); exact ⟨.ndp, m, n, by rw [← hp]; exact congrArg _ h3, by show Proto.decode _ _ _ _ { proto := m.proto } = _; rw [h3]; exact h0, hn, rfl, rfl, rfl⟩

theorem announces_lt {p : Proto} {f : Bytes} {ttl : Nat} (h : Announces p f ttl) : ttl < 65536 := by
  have hb : ∀ t : UInt8, t.toNat < 256 := fun t => t.toNat_lt
  cases p with
  | lldp => obtain ⟨_, _, t0, t1, _, _, _, _, rfl⟩ := h; have := hb t0; have := hb t1; omega
  | cdp => obtain ⟨_, t, _, _, _, _, rfl⟩ := h; have := hb t; omega
  | cdp1 => obtain ⟨_, t, _, _, _, _, rfl⟩ := h; have := hb t; omega
  | fdp => obtain ⟨t, _, _, _, _, rfl⟩ := h; have := hb t; omega
  | edp => have h : ttl = 180 := h; omega
  | ndp => have h : ttl = 180 := h; omega

/-- A stored entry as the client shows it. -/
theorem clientMsg_entry {c : CliConf} {now : Int} {e : Entry} (hd : Decodes e) (hs : Selected c (CliIn.ofEntry e)) (hc : c.mode ≠ .print)
    (hn : now - e.received ≤ e.ttl) (hr : e.received ≤ now) :
    clientMsg c now {} (CliIn.ofEntry e) = .ok ({}, [], some
      ⟨e.index, e.name, e.proto, e.ttl, (e.ttl - (now - e.received)).toNat, e.peer, e.msg.take e.len⟩) := by
  obtain ⟨p, m, n, hp, hdec, hn0, h1, h2, h3⟩ := hd.dec
  have hpr : (c.mode == .print) = false := by simpa using hc
  rcases clientMsg_cases c now {} (CliIn.ofEntry e) with ⟨hns, _⟩ | ⟨p', _, hp', h'⟩
  · exact absurd hs hns
  · have : p' = p := by
      have : Proto.ofNum e.proto = some p' := hp'
      rw [hp] at this; cases this; rfl
    subst this
    rw [h', hpr]
    have e1 : (CliIn.ofEntry e).msg ++ [(if false = true then 2 else 1 : UInt8), 0] = e.msg ++ [1, 0] := rfl
    have e2 : (CliIn.ofEntry e).len.toNat = e.len := rfl
    rw [e1, e2]
    have e3 : ({ proto := (CliIn.ofEntry e).proto, ttl := ({} : CliSt).ttl, peer := ({} : CliSt).peer } : Msg) = { proto := e.proto } := rfl
    rw [e3, hdec]
    simp only [if_neg hn0]
    have hw := decode_announces (e := CliIn.ofEntry e) (p := p') (m := m) (n := n) hd.msg hs (x := [1, 0]) rfl hdec
    have hlt := announces_lt hw.1
    unfold cliShow
    have hne : ¬ (m.ttl : Int) < now - (CliIn.ofEntry e).received := by
      show ¬ (m.ttl : Int) < now - e.received
      rw [h2]; omega
    have hout : m.out = [] := hw.2.2 rfl
    have hlen := hs.size.2
    have hrd : rd (CliIn.ofEntry e).msg 0 (CliIn.ofEntry e).len.toNat = .ok (e.msg.take e.len) := by
      unfold rd
      have : 0 + e.len ≤ e.msg.length := by have := hd.msg; have := hd.len; omega
      show (if 0 + e.len ≤ e.msg.length then _ else _) = _
      rw [if_pos this, List.drop_zero]; rfl
    rw [if_neg hne, hrd]
    simp only [Res.bind_eq, Res.bind_ok, Res.pure_eq, h1, h2, h3, hout]
    have : (((e.ttl : Int) - (now - (CliIn.ofEntry e).received)) % 65536).toNat = ((e.ttl : Int) - (now - e.received)).toNat := by
      show (((e.ttl : Int) - (now - e.received)) % 65536).toNat = _
      omega
    rw [this]
    rfl

theorem clientLoop_entries {c : CliConf} {now : Int} (ho : c.once = false) (hc : c.mode ≠ .print) (es : List Entry)
    (h : ∀ e ∈ es, Decodes e ∧ Selected c (CliIn.ofEntry e) ∧ now - e.received ≤ e.ttl ∧ e.received ≤ now) :
    clientLoop c now {} (es.map CliIn.ofEntry) = .ok (es.map (fun e => ([], some
      ⟨e.index, e.name, e.proto, e.ttl, (e.ttl - (now - e.received)).toNat, e.peer, e.msg.take e.len⟩))) := by
  induction es with
  | nil => rfl
  | cons e es ih =>
    obtain ⟨h1, h2, h3, h4⟩ := h e List.mem_cons_self
    rw [List.map_cons, clientLoop, clientMsg_entry h1 h2 hc h3 h4]
    simp only [Res.bind_eq, Res.bind_ok, Res.pure_eq, ho, Bool.and_false, Bool.false_eq_true, if_false]
    rw [ih (fun e he => h e (List.mem_cons_of_mem _ he))]
    rfl

end Ladvd
