import Verif.Lemmas.Cli
import Verif.Lemmas.Output
/-!
# C20, C21, C42 – C44: the command line client
-/

namespace Ladvd.Props

open Spec

/-! ## Sample data -/

/-- A CDP frame of 62 bytes with host name, hold time `ttl`, received at time 0. -/
def cdpEntry (host : UInt8) (ttl : UInt8) : CliIn :=
  { index := 3, name := lit "eth0", proto := 1, received := 0, len := 62,
    msg := [0x01, 0x00, 0x0c, 0xcc, 0xcc, 0xcc, 2, 0, 0, 0, 0, 7, 0, 48, 0xaa, 0xaa, 3, 0, 0, 0x0c, 0x20, 0x00,
      2, ttl, 0, 0, 0, 1, 0, 7, 0x73, 0x77, host, 0, 3, 0, 29] ++ List.replicate 1481 0x65 }

/-- A NDP frame, which tells nothing about the peer. -/
def ndpEntry : CliIn :=
  { index := 3, name := lit "eth0", proto := 4, received := 0, len := 62,
    msg := [0x01, 0x00, 0x81, 0x00, 0x01, 0x00, 2, 0, 0, 0, 0, 8, 0, 48, 0xaa, 0xaa, 3, 0, 0, 0x81, 0x01, 0xa2,
      10, 0, 0, 1, 0, 0, 1] ++ List.replicate 1489 0 }

/-- A LLDP frame with a system name and a lifetime of 120 seconds. -/
def lldpEntry : CliIn :=
  { index := 3, name := lit "eth0", proto := 0, received := 0, len := 62,
    msg := [0x01, 0x80, 0xc2, 0x00, 0x00, 0x0e, 2, 0, 0, 0, 0, 9, 0x88, 0xcc] ++
      lldpEnc [(1, [7, 0x61]), (2, [5, 0x62]), (3, [0, 120]), (5, [0x63]), (0, [])] ++ List.replicate 1487 0 }

/-- Peer data shown by a run. -/
def peersShown (r : Res (List (List Bytes × Option Shown))) : List Peer :=
  match r with
  | .ok l => l.filterMap (fun x => x.2.map (·.peer))
  | _ => []

/-! ## C20 Expired neighbours are not displayed and messages do not bleed into each other -/

/-- What a decoder makes of a frame does not depend on the lifetime left over from earlier ones. -/
theorem C20_ttl (p : Proto) (print : Bool) (m : Bytes) (len a b proto : Nat) (peer : Peer) :
    p.decode print m len { proto := proto, ttl := a, peer := peer } = p.decode print m len { proto := proto, ttl := b, peer := peer } := by
  exact (decode_ttl p print m len { proto := proto, ttl := b, peer := peer } a)

/-- Whatever was read before (`st`), an entry that is displayed was asked for, carries the lifetime its own frame announces, has not expired,
and the hold time shown is the time it has left. -/
theorem C20_expired (c : CliConf) (now : Int) (st st' : CliSt) (e : CliIn) (texts : List Bytes) (s : Shown) (hm : e.msg.length = 1518)
    (h : clientMsg c now st e = .ok (st', texts, some s)) :
    Selected c e ∧ (∃ p, Proto.ofNum e.proto = some p ∧ Announces p (e.msg.take e.len.toNat) s.ttl) ∧
      now - e.received ≤ s.ttl ∧ (e.received ≤ now → (s.hold : Int) = s.ttl - (now - e.received)) ∧
      s.index = e.index ∧ s.name = e.name ∧ s.frame = e.msg.take e.len.toNat := by
  rcases clientMsg_cases c now st e with ⟨_, h'⟩ | ⟨p, hs, hp, h'⟩
  · rw [h'] at h; cases h
  · rw [h'] at h
    split at h
    · cases h
    · cases h
    · cases h
    · cases h
    · next m n hd =>
      split at h
      · cases h
      · unfold cliShow at h
        split at h
        · cases h
        · next he =>
          unfold rd at h
          split at h
          · cases h
            refine ⟨hs, ⟨p, hp, (decode_announces hm hs (by simp) hd).1⟩, by show _ ≤ (m.ttl : Int); omega, ?_, rfl, rfl, rfl⟩
            intro h2
            have h1' : m.ttl < 65536 := announces_lt (decode_announces hm hs (by simp) hd).1
            show ((((m.ttl : Int) - (now - e.received)) % 65536).toNat : Int) = m.ttl - (now - e.received)
            omega
          · cases h

/-- Shown two seconds after its reception. -/
example : (clientMsg { protos := 255 } 2 {} (cdpEntry 0x31 180) = .ok ({}, [], some
    { index := 3, name := lit "eth0", proto := 1, ttl := 180, hold := 178,
      peer := { hostname := some (lit "sw1"), portname := some (List.replicate 25 0x65) }, frame := (cdpEntry 0x31 180).msg.take 62 })) ∧
    (cdpEntry 0x31 180).msg.length = 1518 := by
  constructor
  · decide +kernel
  · decide +kernel

/-- The statement about whole runs: every displayed neighbour comes from an entry that has not expired, in the order read. -/
theorem C20_run (c : CliConf) (now : Int) (es : List CliIn) (hm : ∀ e ∈ es, e.msg.length = 1518) :
    ∀ (st : CliSt) (l : List (List Bytes × Option Shown)), clientLoop c now st es = .ok l →
      l.length ≤ es.length ∧ ∀ x ∈ es.zip l, ∀ s ∈ x.2.2, ¬ (s.ttl : Int) < now - x.1.received ∧ s.index = x.1.index ∧ s.name = x.1.name ∧
        s.frame = x.1.msg.take x.1.len.toNat ∧ ∃ p, Proto.ofNum x.1.proto = some p ∧ Announces p s.frame s.ttl := by
  induction es with
  | nil => intro st l h; cases h; exact ⟨Nat.le_refl _, fun x hx => by cases hx⟩
  | cons e es ih =>
    intro st l h
    rw [clientLoop] at h
    cases hc : clientMsg c now st e with
    | ok x =>
      obtain ⟨st', texts, s⟩ := x
      rw [hc] at h
      simp only [Res.bind_eq, Res.bind_ok, Res.pure_eq] at h
      have hhead : ∀ s' ∈ s, ¬ (s'.ttl : Int) < now - e.received ∧ s'.index = e.index ∧ s'.name = e.name ∧
          s'.frame = e.msg.take e.len.toNat ∧ ∃ p, Proto.ofNum e.proto = some p ∧ Announces p s'.frame s'.ttl := by
        intro s' hs'
        have hs'' : s = some s' := hs'
        subst hs''
        obtain ⟨_, ⟨p, hp, ha⟩, h2, _, h3, h4, h5⟩ := C20_expired c now st st' e texts s' (hm e List.mem_cons_self) hc
        exact ⟨by omega, h3, h4, h5, p, hp, by rw [h5]; exact ha⟩
      split at h
      · cases h
        refine ⟨by simp, fun x hx => ?_⟩
        rw [List.zip_cons_cons, List.zip_nil_right] at hx
        rcases List.mem_cons.mp hx with rfl | hx
        · exact hhead
        · cases hx
      · cases hr : clientLoop c now st' es with
        | ok r =>
          rw [hr] at h
          cases h
          obtain ⟨a, b⟩ := ih (fun e he => hm e (List.mem_cons_of_mem _ he)) st' r hr
          refine ⟨by simp; omega, fun x hx => ?_⟩
          rcases List.mem_cons.mp (by rw [List.zip_cons_cons] at hx; exact hx) with rfl | hx
          · exact hhead
          · exact b x hx
        | fail => rw [hr] at h; cases h
        | oob => rw [hr] at h; cases h
        | abort => rw [hr] at h; cases h
        | stuck => rw [hr] at h; cases h
    | fail => rw [hc] at h; cases h
    | oob => rw [hc] at h; cases h
    | abort => rw [hc] at h; cases h
    | stuck => rw [hc] at h; cases h

/-- `C20_run`: of three entries the second one has expired and is not displayed. -/
example : (∀ e ∈ [cdpEntry 0x31 180, cdpEntry 0x32 1, lldpEntry], e.msg.length = 1518) ∧
    (match clientLoop { protos := 255 } 2 {} [cdpEntry 0x31 180, cdpEntry 0x32 1, ndpEntry] with
      | .ok l => l.map (fun x => x.2.map (fun s => (s.ttl, s.hold)))
      | _ => []) = [some (180, 178), none, some (180, 178)] := by decide +kernel

/-- Entries that have not expired leave no trace: what is displayed for the entries after them is what would be displayed without them.
Missing for the full statement: runs in which an expired entry is read (see `C20_bleed`), because its data is not released. -/
theorem C20_own_partial (c : CliConf) (now : Int) (es1 es2 : List CliIn) (ho : c.once = false) (hm : ∀ e ∈ es1, e.msg.length = 1518)
    (hu : ∀ e ∈ es1, ¬ Expired now e) :
    clientLoop c now {} (es1 ++ es2) = (clientLoop c now {} es1).bind (fun a => (clientLoop c now {} es2).map (a ++ ·)) := by
  induction es1 with
  | nil => simp only [List.nil_append, clientLoop, Res.bind_ok]; cases clientLoop c now {} es2 <;> rfl
  | cons e es1 ih =>
    rw [List.cons_append, clientLoop, clientLoop]
    cases hc : clientMsg c now {} e with
    | ok x =>
      obtain ⟨st', texts, s⟩ := x
      have := clientMsg_clean (hm e List.mem_cons_self) (hu e List.mem_cons_self) hc
      subst this
      simp only [Res.bind_eq, Res.bind_ok, Res.pure_eq, ho, Bool.and_false, Bool.false_eq_true, if_false]
      rw [ih (fun e he => hm e (List.mem_cons_of_mem _ he)) (fun e he => hu e (List.mem_cons_of_mem _ he))]
      cases clientLoop c now {} es1 with
      | ok a => cases clientLoop c now {} es2 <;> rfl
      | _ => rfl
    | _ => rfl

/-- Two neighbours; neither has expired. -/
example : peersShown (clientLoop { protos := 255 } 2 {} [cdpEntry 0x31 180, ndpEntry]) =
    [{ hostname := some (lit "sw1"), portname := some (List.replicate 25 0x65) }, {}] := by decide +kernel

/-- The claim fails when an expired entry is read first: the host and port of an expired CDP neighbour are displayed as those of another
neighbour, which announced neither. -/
theorem C20_bleed : ∃ now, Expired now (cdpEntry 0x31 1) ∧ ¬ Expired now ndpEntry ∧
    peersShown (clientLoop { protos := 255 } now {} [ndpEntry]) = [{}] ∧
    peersShown (clientLoop { protos := 255 } now {} [cdpEntry 0x31 1, ndpEntry]) =
      [{ hostname := some (lit "sw1"), portname := some (List.replicate 25 0x65) }] := by
  refine ⟨2, ⟨.cdp, 1, rfl, ⟨2, 1, 0, 0, (((cdpEntry 0x31 1).msg.take 62).drop 26), ⟨((cdpEntry 0x31 1).msg.take 62).take 22, ?_, by decide +kernel⟩, rfl⟩,
    by decide⟩, ?_, by decide +kernel, by decide +kernel⟩
  · exact ⟨[2, 0, 0, 0, 0, 7], [0, 48], rfl, rfl, Or.inl ⟨by decide +kernel, by decide⟩⟩
  · rintro ⟨p, ttl, hp, ha, hl⟩
    have : p = .ndp := by cases hp; rfl
    subst this
    have ha : ttl = 180 := ha
    subst ha
    exact absurd hl (by decide)

/-- It can also hide a neighbour: the system name of a LLDP neighbour is rejected as a duplicate of the one left by the expired entry. -/
theorem C20_hidden : peersShown (clientLoop { protos := 255 } 2 {} [lldpEntry]) =
      [{ hostname := some (lit "c"), portname := some (lit "b") }] ∧
    peersShown (clientLoop { protos := 255 } 2 {} [cdpEntry 0x31 1, lldpEntry]) = [] := by
  constructor <;> decide +kernel

/-- And the full display (`-f`) prints the texts of expired entries. -/
theorem C20_print_expired : clientLoop { protos := 255, mode := .print } 2 {} [cdpEntry 0x31 1] =
    .ok [([lit "sw1", List.replicate 25 0x65], none)] := by decide +kernel

/-- From the wire to the display: whatever the daemon has done, the entries it delivers to a client are displayed one by one with the interface,
protocol, lifetime and peer data of the table, as long as none has expired.  Receptions are of messages in the 1518 byte buffer with frames
long enough for the headers. -/
theorem C20_daemon (o : Opts) (l : List Netif) (ops : List ChildOp) (st : Child) (h : childRun o { netifs := l } ops = .ok st)
    (hb : ∀ t r, ChildOp.recv (some t) r ∈ ops → r.msg.length = 1518 ∧ 26 ≤ r.len)
    (sid : Nat) (c : CliConf) (now : Int) (ho : c.once = false) (hc : c.mode ≠ .print)
    (hsel : ∀ e ∈ delivered st sid, Selected c (CliIn.ofEntry e))
    (hnow : ∀ e ∈ delivered st sid, now - e.received ≤ e.ttl ∧ e.received ≤ now) :
    clientLoop c now {} ((delivered st sid).map CliIn.ofEntry) = .ok ((delivered st sid).map (fun e => ([], some
      { index := e.index, name := e.name, proto := e.proto, ttl := e.ttl, hold := (e.ttl - (now - e.received)).toNat,
        peer := e.peer, frame := e.msg.take e.len }))) := by
  have hrun := entries_run (P := Decodes) (fun e i l h => ⟨h.msg, h.len, h.dec⟩)
    (fun st t r subif m hm ht => taken_decodes (hb t r hm).1 (hb t r hm).2 ht)
    (by intro e he; cases he) (by intro x hx; cases hx) h
  refine clientLoop_entries ho hc _ (fun e he => ?_)
  obtain ⟨h3, h4⟩ := hnow e he
  refine ⟨?_, hsel e he, h3, h4⟩
  unfold delivered at he
  obtain ⟨x, hx, rfl⟩ := List.mem_map.mp he
  exact hrun.2 x (List.mem_filter.mp hx).1

/-- Events: two receptions, and a client that reads both entries. -/
def twoOps : List ChildOp :=
  [.recv (some 100) (sampleCdp 7 180), .recv (some 101) (sampleMsg 8), .accept, .write 2 (some [.ok, .ok])]

/-- The state after them. -/
def twoState : Child := match childRun 0 sampleState twoOps with
  | .ok st => st
  | _ => {}

theorem selected_of {c : CliConf} {e : Entry} (h : e.proto < 6 ∧ 60 ≤ (e.len : Int) ∧ (e.len : Int) ≤ 1518 ∧ c.protos.testBit e.proto = true)
    (hi : c.indexes = none) : Selected c (CliIn.ofEntry e) :=
  ⟨h.1, ⟨h.2.1, h.2.2.1⟩, (fun l hl => by rw [hi] at hl; cases hl), h.2.2.2⟩

/-- Two neighbours delivered to a client and displayed two seconds later. -/
example : childRun 0 sampleState twoOps = .ok twoState ∧ (delivered twoState 2).length = 2 ∧
    (∀ e ∈ delivered twoState 2, Selected { protos := 255 } (CliIn.ofEntry e)) ∧
    (∀ e ∈ delivered twoState 2, 102 - e.received ≤ e.ttl ∧ e.received ≤ 102) ∧
    peersShown (clientLoop { protos := 255 } 102 {} ((delivered twoState 2).map CliIn.ofEntry)) =
      [{ hostname := some (lit "sw1"), portname := some (List.replicate 25 0x65) }, {}] := by
  refine ⟨by decide +kernel, by decide +kernel, fun e he => selected_of ?_ rfl, by decide +kernel, by decide +kernel⟩
  revert e
  decide +kernel

/-- With `-o` the run ends with the first neighbour displayed; up to there it is the same run. -/
theorem C20_once (c : CliConf) (now : Int) (es : List CliIn) : ∀ (st : CliSt) (l : List (List Bytes × Option Shown)),
    clientLoop { c with once := false } now st es = .ok l →
    ∃ pre, clientLoop { c with once := true } now st es = .ok pre ∧ pre <+: l ∧
      pre.filterMap (·.2) = (l.filterMap (·.2)).take 1 := by
  induction es with
  | nil => intro st l h; cases h; exact ⟨[], rfl, List.prefix_refl _, rfl⟩
  | cons e es ih =>
    intro st l h
    have hsame : ∀ b, clientMsg { c with once := b } now st e = clientMsg c now st e := fun b => rfl
    rw [clientLoop, hsame] at h
    rw [clientLoop, hsame]
    cases hc : clientMsg c now st e with
    | ok x =>
      obtain ⟨st', texts, s⟩ := x
      rw [hc] at h
      simp only [Res.bind_eq, Res.bind_ok, Res.pure_eq, Bool.and_false, Bool.and_true, Bool.false_eq_true, if_false] at h ⊢
      cases hr : clientLoop { c with once := false } now st' es with
      | ok r =>
        rw [hr] at h
        cases h
        cases s with
        | some s => exact ⟨[(texts, some s)], rfl, ⟨r, rfl⟩, rfl⟩
        | none =>
          obtain ⟨pre, h1, h2, h3⟩ := ih st' r hr
          refine ⟨(texts, none) :: pre, by simp only [Option.isSome_none, Bool.false_eq_true, if_false, h1]; rfl, (List.prefix_cons_inj _).mpr h2, ?_⟩
          simpa using h3
      | fail => rw [hr] at h; cases h
      | oob => rw [hr] at h; cases h
      | abort => rw [hr] at h; cases h
      | stuck => rw [hr] at h; cases h
    | fail => rw [hc] at h; cases h
    | oob => rw [hc] at h; cases h
    | abort => rw [hc] at h; cases h
    | stuck => rw [hc] at h; cases h

example : peersShown (clientLoop { protos := 255, once := true } 2 {} [cdpEntry 0x31 1, cdpEntry 0x32 180, ndpEntry]) =
    [{ hostname := some (lit "sw1"), portname := some (List.replicate 25 0x65) }] := by decide +kernel

/-! ## C21 Batch output cannot be broken out of -/

theorem shellGo_name (n : Bytes) : ∀ (acc r : Bytes), (∀ b ∈ n, nameByte b = true) →
    shellGo (.name acc) (n ++ r) = shellGo (.name (acc ++ n)) r := by
  induction n with
  | nil => intro acc r _; simp
  | cons b n ih =>
    intro acc r h
    have hb := h b List.mem_cons_self
    have hne : b ≠ 0x3d := by rintro rfl; revert hb; decide
    rw [List.cons_append, shellGo, if_neg hne, if_pos hb, ih _ _ (fun x hx => h x (List.mem_cons_of_mem _ hx))]
    simp

theorem shellGo_quoted (v : Bytes) : ∀ (n acc r : Bytes), (∀ b ∈ v, b ≠ 0x27) →
    shellGo (.quoted n acc) (v ++ r) = shellGo (.quoted n (acc ++ v)) r := by
  induction v with
  | nil => intro n acc r _; simp
  | cons b v ih =>
    intro n acc r h
    rw [List.cons_append, shellGo, if_neg (h b List.mem_cons_self), ih _ _ _ (fun x hx => h x (List.mem_cons_of_mem _ hx))]
    simp

/-- One line is one assignment. -/
theorem shell_line (name value r : Bytes) (hn : ∀ b ∈ name, nameByte b = true) (h0 : name ≠ []) (hv : ∀ b ∈ value, b ≠ 0x27) :
    shellRun (name ++ ([0x3d, 0x27] ++ (value ++ ([0x27, 0x0a] ++ r)))) = (shellRun r).map ((name, value) :: ·) := by
  unfold shellRun
  rw [shellGo_name _ _ _ hn, List.nil_append, List.cons_append, shellGo, if_pos rfl, if_neg h0, List.cons_append, shellGo, if_pos rfl,
    List.nil_append, shellGo_quoted _ _ _ _ hv, List.nil_append, List.cons_append, shellGo, if_pos rfl, List.cons_append, shellGo, if_pos rfl,
    List.nil_append]

theorem decimalAux_digits (k : Nat) : ∀ (n : Nat) (acc : Bytes), Digits acc → Digits (decimalAux k n acc) := by
  induction k with
  | zero => intro n acc h; exact h
  | succ k ih =>
    intro n acc h
    have hc : Digits (UInt8.ofNat (48 + n % 10) :: acc) := by
      intro b hb
      rcases List.mem_cons.mp hb with rfl | hb
      · exact digit_safe _ (Nat.mod_lt _ (by omega))
      · exact h b hb
    rw [decimalAux]
    split
    · exact hc
    · exact ih _ _ hc

theorem decimal32_digits (n : Nat) : Digits (decimal32 n) := decimalAux_digits _ _ _ (by intro b hb; cases hb)
theorem decimal16_digits (n : Nat) : Digits (decimal16 n) := decimalAux_digits _ _ _ (by intro b hb; cases hb)

theorem digit_name : ∀ b : UInt8, 0x30 ≤ b ∧ b ≤ 0x39 → nameByte b = true := by
  intro b ⟨h1, h2⟩
  unfold nameByte
  simp [h1, h2]

theorem digit_quote {t : Bytes} (h : Digits t) : ∀ b ∈ t, b ≠ 0x27 := by
  rintro b hb rfl
  exact absurd (h _ hb).1 (by decide)

/-- One line of batch output. -/
theorem batch_line (label : Bytes) (count : Nat) (value r : Bytes) (hn : ∀ b ∈ label, nameByte b = true) (hv : ∀ b ∈ value, b ≠ 0x27) :
    shellRun (batchLine label count value ++ r) = (shellRun r).map ((label ++ 0x5f :: decimal32 count, value) :: ·) := by
  have e : batchLine label count value ++ r = (label ++ 0x5f :: decimal32 count) ++ ([0x3d, 0x27] ++ (value ++ ([0x27, 0x0a] ++ r))) := by
    unfold batchLine
    have e1 : lit "_" = [0x5f] := by decide
    have e2 : lit "='" = [0x3d, 0x27] := by decide
    have e3 : lit "'\n" = [0x27, 0x0a] := by decide
    rw [e1, e2, e3]
    simp [List.append_assoc]
  rw [e]
  apply shell_line _ _ _ _ (by simp) hv
  intro b hb
  rcases List.mem_append.mp hb with hb | hb
  · exact hn b hb
  · rcases List.mem_cons.mp hb with rfl | hb
    · decide
    · exact digit_name b (decimal32_digits count b hb)

theorem swapchr_eq (c d : UInt8) (t : Bytes) : swapchr c d t = t.map (fun b => if b = c then d else b) := by
  induction t with
  | nil => rfl
  | cons b t ih => rw [swapchr, ih]; rfl

theorem requoted_eq (t : Option Bytes) : strOr (t.map (swapchr 0x27 0x22)) = requoted t := by
  unfold strOr requoted
  cases t with
  | none => rfl
  | some t => simp only [Option.map_some, Option.getD_some, swapchr_eq]

theorem requoted_quote (t : Option Bytes) : ∀ b ∈ requoted t, b ≠ 0x27 := by
  intro b hb
  unfold requoted at hb
  obtain ⟨x, _, rfl⟩ := List.mem_map.mp hb
  split
  · decide
  · assumption

theorem hexDigit_quote (n : Nat) (h : n < 16) : hexDigit n ≠ 0x27 := by
  have : ∀ n : Fin 16, hexDigit n.val ≠ 0x27 := by decide
  exact this ⟨n, h⟩

theorem macText_quote (m : Bytes) : ∀ b ∈ macText m, b ≠ 0x27 := by
  have h2 : ∀ b : UInt8, b.toNat / 16 < 16 := fun b => by have := b.toNat_lt; omega
  induction m with
  | nil => intro b hb; cases hb
  | cons a m ih =>
    cases m with
    | nil =>
      intro b hb
      simp only [macText, List.mem_cons, List.not_mem_nil, or_false] at hb
      rcases hb with rfl | rfl
      · exact hexDigit_quote _ (h2 a)
      · exact hexDigit_quote _ (Nat.mod_lt _ (by omega))
    | cons c m =>
      intro b hb
      rw [macText] at hb
      · rcases List.mem_cons.mp hb with rfl | hb
        · exact hexDigit_quote _ (h2 a)
        rcases List.mem_cons.mp hb with rfl | hb
        · exact hexDigit_quote _ (Nat.mod_lt _ (by omega))
        rcases List.mem_cons.mp hb with rfl | hb
        · decide
        · exact ih b hb
      · intro h; cases h

theorem inet4Text_quote (m : Bytes) : ∀ b ∈ inet4Text m, b ≠ 0x27 := by
  induction m with
  | nil => intro b hb; cases hb
  | cons a m ih =>
    cases m with
    | nil => exact digit_quote (decimal16_digits _)
    | cons c m =>
      intro b hb
      rw [inet4Text] at hb
      · rcases List.mem_append.mp hb with hb | hb
        · exact digit_quote (decimal16_digits _) b hb
        rcases List.mem_cons.mp hb with rfl | hb
        · decide
        · exact ih b hb
      · intro h; cases h

theorem protoName_quote (n : Nat) : ∀ b ∈ protoName n, b ≠ 0x27 := by
  unfold protoName
  split <;> decide

theorem capText_quote {t : Bytes} (h : CapText t) : ∀ b ∈ t, b ≠ 0x27 := by
  rintro b hb rfl
  exact absurd (h _ hb) (by decide)

theorem strOr_all {P : UInt8 → Prop} {o : Option Bytes} (h : ∀ t ∈ o, ∀ b ∈ t, P b) : ∀ b ∈ strOr o, P b := by
  cases o with
  | none => intro b hb; cases hb
  | some t => exact h t rfl

/-- The values in the notation of the model. -/
def modelValues (ntop6 : Bytes → Bytes) (s : Shown) : List (Bytes × Bytes) :=
  [(lit "INTERFACE", s.name), (lit "HOSTNAME", requoted s.peer.hostname), (lit "PORTNAME", requoted s.peer.portname),
   (lit "PORTDESCR", requoted s.peer.portdescr), (lit "PROTOCOL", protoName s.proto),
   (lit "ADDR_INET4", strOr (s.peer.inet4.map inet4Text)), (lit "ADDR_INET6", strOr (s.peer.inet6.map ntop6)),
   (lit "ADDR_802", strOr (s.peer.mac.map macText)), (lit "VLAN_ID", strOr s.peer.vlan), (lit "CAPABILITIES", strOr s.peer.cap),
   (lit "TTL", decimal16 s.ttl), (lit "HOLDTIME", decimal16 s.hold)]

theorem modelValues_eq (ntop6 : Bytes → Bytes) {s : Shown} (h1 : s.ttl < 65536) (h2 : s.hold < 65536) :
    modelValues ntop6 s = batchValues ntop6 s := by
  have e1 : inet4Text = dottedText := funext inet4Text_eq
  have e2 : macText = etherText := funext macText_eq
  unfold modelValues batchValues strOr
  rw [numeral16 h1, numeral16 h2, protoName_eq, e1, e2]

/-- What holds of every displayed neighbour. -/
def ShownSafe (s : Shown) : Prop := PeerSafe s.peer ∧ s.ttl < 65536 ∧ s.hold < 65536

theorem batchText_shell (ntop6 : Bytes → Bytes) (h6 : ∀ a, ∀ b ∈ ntop6 a, b ≠ 0x27) (count : Nat) (s : Shown) (r : Bytes)
    (hn : ∀ b ∈ s.name, b ≠ 0x27) (hp : PeerSafe s.peer) :
    shellRun (batchText ntop6 count s ++ r) =
      (shellRun r).map ((modelValues ntop6 s).map (fun p => (p.1 ++ 0x5f :: decimal32 count, p.2)) ++ ·) := by
  obtain ⟨_, _, _, hcap, hvlan⟩ := hp
  unfold batchText
  simp only [List.append_assoc, requoted_eq]
  rw [batch_line _ _ _ _ (by decide) hn, batch_line _ _ _ _ (by decide) (requoted_quote _),
    batch_line _ _ _ _ (by decide) (requoted_quote _), batch_line _ _ _ _ (by decide) (requoted_quote _),
    batch_line _ _ _ _ (by decide) (protoName_quote _), batch_line _ _ _ _ (by decide) (strOr_all ?_),
    batch_line _ _ _ _ (by decide) (strOr_all ?_), batch_line _ _ _ _ (by decide) (strOr_all ?_),
    batch_line _ _ _ _ (by decide) (strOr_all (fun t ht => digit_quote (hvlan t ht))),
    batch_line _ _ _ _ (by decide) (strOr_all (fun t ht => capText_quote (hcap t ht))),
    batch_line _ _ _ _ (by decide) (digit_quote (decimal16_digits _)), batch_line _ _ _ _ (by decide) (digit_quote (decimal16_digits _))]
  · cases shellRun r <;> rfl
  · intro t ht
    obtain ⟨a, _, rfl⟩ := Option.map_eq_some_iff.mp ht
    exact macText_quote a
  · intro t ht
    obtain ⟨a, _, rfl⟩ := Option.map_eq_some_iff.mp ht
    exact h6 a
  · intro t ht
    obtain ⟨a, _, rfl⟩ := Option.map_eq_some_iff.mp ht
    exact inet4Text_quote a

theorem batchAll_shell (ntop6 : Bytes → Bytes) (h6 : ∀ a, ∀ b ∈ ntop6 a, b ≠ 0x27) (ss : List Shown) : ∀ (count : Nat),
    count + ss.length < 2 ^ 32 → (∀ s ∈ ss, (∀ b ∈ s.name, b ≠ 0x27) ∧ ShownSafe s) →
    shellRun (batchAll ntop6 count ss) = some ((ss.zipIdx count).flatMap
      (fun x => (batchValues ntop6 x.1).map (fun p => (p.1 ++ lit "_" ++ numeral x.2, p.2)))) := by
  induction ss with
  | nil => intro count _ _; rfl
  | cons s ss ih =>
    intro count hc h
    rw [List.length_cons] at hc
    obtain ⟨h1, h2, h3, h4⟩ := h s List.mem_cons_self
    rw [batchAll, batchText_shell ntop6 h6 count s _ h1 h2,
      Nat.mod_eq_of_lt (by omega), ih (count + 1) (by omega) (fun x hx => h x (List.mem_cons_of_mem _ hx)), modelValues_eq ntop6 h3 h4,
      numeral32 (show count < 2 ^ 32 by omega), List.zipIdx_cons, List.flatMap_cons, Option.map_some]
    have e : lit "_" = [0x5f] := by decide
    rw [e]
    simp only [List.append_assoc, List.singleton_append]

/-- All peer data displayed by a run, and all that is left behind by expired entries, is sanitised. -/
theorem client_safe (c : CliConf) (now : Int) (es : List CliIn) (hm : ∀ e ∈ es, e.msg.length = 1518) :
    ∀ (st : CliSt) (l : List (List Bytes × Option Shown)), PeerSafe st.peer → clientLoop c now st es = .ok l →
      ∀ s ∈ l.filterMap (·.2), ShownSafe s ∧ ∃ e ∈ es, s.name = e.name := by
  induction es with
  | nil => intro st l _ h; cases h; intro s hs; cases hs
  | cons e es ih =>
    intro st l hst h
    rw [clientLoop] at h
    cases hc : clientMsg c now st e with
    | ok x =>
      obtain ⟨st', texts, s⟩ := x
      rw [hc] at h
      simp only [Res.bind_eq, Res.bind_ok, Res.pure_eq] at h
      have hsafe0 : PeerSafe ({} : Peer) := by simp [PeerSafe]
      have hstep : PeerSafe st'.peer ∧ ∀ s' ∈ s, ShownSafe s' ∧ s'.name = e.name := by
        rcases clientMsg_cases c now st e with ⟨_, h'⟩ | ⟨p, hs, hp, h'⟩
        · rw [h'] at hc; cases hc; exact ⟨hst, fun s hs => by cases hs⟩
        · rw [h'] at hc
          split at hc
          · cases hc
          · cases hc
          · cases hc
          · cases hc; exact ⟨hsafe0, fun s hs => by cases hs⟩
          · next m n hd =>
            split at hc
            · cases hc; exact ⟨hsafe0, fun s hs => by cases hs⟩
            · have httl : m.ttl < 65536 := announces_lt (decode_announces (hm e List.mem_cons_self) hs (by simp) hd).1
              have hms : PeerSafe m.peer := by
                have hm' := hm e List.mem_cons_self
                obtain ⟨h1, h2⟩ := split_msg hm' hs.size [if c.mode == .print then 2 else 1, 0]
                rw [h1] at hd
                have h3 := hs.size
                refine C12_peer_safe p _ (e.msg.take e.len.toNat) (e.msg.drop e.len.toNat ++ [if c.mode == .print then 2 else 1, 0])
                  _ m n (by omega) (by omega) (by rw [List.length_append]; exact Nat.le_add_left 2 _) ?_ (by rw [h2]; exact hd)
                exact hst
              unfold cliShow at hc
              split at hc
              · cases hc; exact ⟨hms, fun s hs => by cases hs⟩
              · unfold rd at hc
                split at hc
                · cases hc; exact ⟨hsafe0, fun s hs => by
                    cases hs
                    exact ⟨⟨hms, httl, by show ((m.ttl - (now - e.received)) % 65536).toNat < 65536; omega⟩, rfl⟩⟩
                · cases hc
      have hhead : ∀ s' ∈ s.toList, ShownSafe s' ∧ ∃ e' ∈ e :: es, s'.name = e'.name := by
        intro s' hs'
        have := hstep.2 s' (by simpa using hs')
        exact ⟨this.1, e, List.mem_cons_self, this.2⟩
      have hjoin : ∀ r : List (List Bytes × Option Shown), (∀ x ∈ r.filterMap (·.2), ShownSafe x ∧ ∃ e' ∈ es, x.name = e'.name) →
          ∀ x ∈ ((texts, s) :: r).filterMap (·.2), ShownSafe x ∧ ∃ e' ∈ e :: es, x.name = e'.name := by
        intro r hr x hx
        cases s with
        | none =>
          obtain ⟨a, e', he', b⟩ := hr x (by simpa using hx)
          exact ⟨a, e', List.mem_cons_of_mem _ he', b⟩
        | some s =>
          rw [List.filterMap_cons_some (f := fun x : List Bytes × Option Shown => x.2) (b := s) rfl] at hx
          rcases List.mem_cons.mp hx with rfl | hx
          · exact hhead _ (by simp)
          · obtain ⟨a, e', he', b⟩ := hr x hx
            exact ⟨a, e', List.mem_cons_of_mem _ he', b⟩
      split at h
      · cases h
        exact hjoin [] (fun x hx => by cases hx)
      · cases hr : clientLoop c now st' es with
        | ok r =>
          rw [hr] at h
          cases h
          exact hjoin r (ih (fun e he => hm e (List.mem_cons_of_mem _ he)) st' r hstep.1 hr)
        | fail => rw [hr] at h; cases h
        | oob => rw [hr] at h; cases h
        | abort => rw [hr] at h; cases h
        | stuck => rw [hr] at h; cases h
    | fail => rw [hc] at h; cases h
    | oob => rw [hc] at h; cases h
    | abort => rw [hc] at h; cases h
    | stuck => rw [hc] at h; cases h

/-- Whatever frames the entries contain and whether or not they have expired, a shell that evaluates the batch output makes exactly the
assignments of the displayed neighbours' values and nothing else.  Assumed: names of local interfaces and the IPv6 addresses formatted by
libc contain no single quote. -/
theorem C21_batch (ntop6 : Bytes → Bytes) (h6 : ∀ a, ∀ b ∈ ntop6 a, b ≠ 0x27) (c : CliConf) (now : Int) (es : List CliIn)
    (hm : ∀ e ∈ es, e.msg.length = 1518) (hn : ∀ e ∈ es, ∀ b ∈ e.name, b ≠ 0x27) (l : List (List Bytes × Option Shown))
    (h : clientLoop c now {} es = .ok l) (hl : l.length < 2 ^ 32) :
    shellRun (batchAll ntop6 0 (l.filterMap (·.2))) = some (batchVars ntop6 (l.filterMap (·.2))) := by
  apply batchAll_shell ntop6 h6
  · have := List.length_filterMap_le (f := fun x : List Bytes × Option Shown => x.2) (l := l)
    omega
  · intro s hs
    obtain ⟨a, e, he, b⟩ := client_safe c now es hm {} l (by simp [PeerSafe]) h s hs
    exact ⟨by rw [b]; exact hn e he, a⟩

/-- A host name with a quote and a command: the shell sees twelve assignments. -/
example : ∃ l, clientLoop { protos := 255, mode := .batch } 2 {} [cdpEntry 0x27 180] = .ok l ∧
    (shellRun (batchAll (fun _ => []) 0 (l.filterMap (·.2)))).map (·.map (·.2) |>.take 2) = some [lit "eth0", lit "sw\""] := by
  refine ⟨(match clientLoop { protos := 255, mode := .batch } 2 {} [cdpEntry 0x27 180] with | .ok l => l | _ => []), ?_, ?_⟩
  · decide +kernel
  · decide +kernel

end Ladvd.Props
