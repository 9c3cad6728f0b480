import Verif.Spec.Netlink
import Verif.Props.Send
import Verif.Lemmas.Parent
/-!
# C57: Link notifications
-/

namespace Ladvd.Props
open Ladvd.Spec

private theorem both_bits (n : Nat) : n &&& (0x40 ||| 0x10000) = (0x40 ||| 0x10000) ↔ n.testBit 6 = true ∧ n.testBit 16 = true := by
  constructor
  · intro h
    have h6 := congrArg (fun x => x.testBit 6) h
    have h16 := congrArg (fun x => x.testBit 16) h
    simp only [Nat.testBit_and, show ((0x40 : Nat) ||| 0x10000).testBit 6 = true from by decide,
      show ((0x40 : Nat) ||| 0x10000).testBit 16 = true from by decide, Bool.and_true] at h6 h16
    exact ⟨h6, h16⟩
  · rintro ⟨h6, h16⟩
    apply Nat.eq_of_testBit_eq
    intro i
    rw [Nat.testBit_and, Nat.testBit_or, show (0x40 : Nat) = 2 ^ 6 from rfl, show (0x10000 : Nat) = 2 ^ 16 from rfl,
      Nat.testBit_two_pow, Nat.testBit_two_pow]
    by_cases a : 6 = i
    · subst a; simp [h6]
    · by_cases b : 16 = i
      · subst b; simp [h16]
      · simp [a, b]

private theorem payload_fields (r : Report) :
    rd r.msg.payload 2 2 = .ok (leBytes 2 r.hwType) ∧ rd r.msg.payload 8 4 = .ok (leBytes 4 r.flags) ∧
    rd r.msg.payload 4 4 = .ok (leBytes 4 r.index) := by
  refine ⟨?_, ?_, ?_⟩ <;>
  · unfold rd Report.msg
    simp [leBytes]

private theorem cb_report (c : Conf) (d : Daemon) (r : Report) (hf : r.Fits) :
    childLinkCb c d r.msg = daemonStep c d (.link r.k r.m (decide (r.hwType = 1)) (r.flags.testBit 6 && r.flags.testBit 16) r.index) := by
  obtain ⟨h1, h2, h3⟩ := payload_fields r
  obtain ⟨f1, f2, f3⟩ := hf
  unfold childLinkCb daemonStep
  rw [h1, h2, h3]
  simp only [Res.bind_eq, Res.bind_ok, leNat_leBytes 2 r.hwType (by omega), leNat_leBytes 4 r.flags (by omega),
    leNat_leBytes 4 r.index (by omega)]
  have hne : ¬ r.index = 2 ^ 32 - 1 := by omega
  by_cases a : r.hwType = 1
  · by_cases b : r.flags.testBit 6 = true ∧ r.flags.testBit 16 = true
    · rw [if_neg (by simpa using a), if_neg (by simpa using (both_bits _).2 b), if_neg hne]
      simp [a, b.1, b.2, Report.msg]
    · rw [if_neg (by simpa using a), if_pos (fun x => b ((both_bits _).1 x))]
      have : (r.flags.testBit 6 && r.flags.testBit 16) = false := by
        cases h : (r.flags.testBit 6 && r.flags.testBit 16)
        · rfl
        · exact absurd (by simpa using h) b
      simp [this]
  · rw [if_pos (by simpa using a)]
    simp [a]

/-- The event a report stands for. -/
private def ev (r : Report) : Event := .link r.k r.m true true r.index

private theorem cb_up (c : Conf) (d : Daemon) (r : Report) (hf : r.Fits) :
    childLinkCb c d r.msg = if r.Up then daemonStep c d (ev r) else .ok d := by
  rw [cb_report c d r hf]
  show (if (decide (r.hwType = 1) && (r.flags.testBit 6 && r.flags.testBit 16)) = true then sendRound c r.k r.m (some r.index) d else .ok d) =
    if r.Up then sendRound c r.k r.m (some r.index) d else .ok d
  have : ((decide (r.hwType = 1) && (r.flags.testBit 6 && r.flags.testBit 16)) = true) = r.Up := by
    simp [Report.Up]
  simp only [this]

private theorem daemonRun_append (c : Conf) : ∀ (a b : List Event) (d : Daemon),
    daemonRun c (a ++ b) d = (daemonRun c a d).bind (daemonRun c b)
  | [], _, _ => rfl
  | e :: a, b, d => by
    show (daemonStep c d e).bind (daemonRun c (a ++ b)) = ((daemonStep c d e).bind (daemonRun c a)).bind (daemonRun c b)
    cases daemonStep c d e with
    | ok d' => exact daemonRun_append c a b d'
    | _ => rfl

/-- The events of a datagram. -/
private def evs (xs : List Report) : List Event :=
  (((xs.takeWhile (fun r => ¬ r.Ends)).filter (fun r => r.msgType ≥ 16)).filter (fun r => r.Up)).map ev

private theorem nlRun_eq (c : Conf) : ∀ (xs : List Report), (∀ r ∈ xs, r.Fits) → ∀ d : Daemon,
    ∃ b, nlRun c (xs.map Report.msg) d = (daemonRun c (evs xs) d).bind (fun d' => .ok (d', b))
  | [], _, d => ⟨true, rfl⟩
  | r :: xs, hf, d => by
    have ih := nlRun_eq c xs (fun x hx => hf x (List.mem_cons_of_mem _ hx))
    rw [List.map_cons, nlRun]
    by_cases hfl : r.msg.flags.testBit 4 = true
    · refine ⟨false, ?_⟩
      have : r.Ends := .inr (.inr hfl)
      rw [if_pos hfl, evs, List.takeWhile_cons_of_neg (by simpa using this)]
      rfl
    · rw [if_neg hfl]
      by_cases ht : r.msg.type ≥ 16
      · have ht' : r.msgType ≥ 16 := ht
        have hne : ¬ r.Ends := by
          rintro (h | h | h)
          · omega
          · omega
          · exact hfl h
        rw [if_pos ht, cb_up c d r (hf r List.mem_cons_self)]
        have hev : evs (r :: xs) = if r.Up then ev r :: evs xs else evs xs := by
          unfold evs
          rw [List.takeWhile_cons_of_pos (by simpa using hne), List.filter_cons_of_pos (by simpa using ht')]
          by_cases hu : r.Up
          · rw [List.filter_cons_of_pos (by simpa using hu), if_pos hu]; rfl
          · rw [List.filter_cons_of_neg (by simpa using hu), if_neg hu]
        rw [hev]
        by_cases hu : r.Up
        · rw [if_pos hu, if_pos hu]
          show ∃ b, (daemonStep c d (ev r)).bind _ = ((daemonStep c d (ev r)).bind (daemonRun c (evs xs))).bind _
          cases daemonStep c d (ev r) with
          | ok d' => exact ih d'
          | _ => exact ⟨true, rfl⟩
        · rw [if_neg hu, if_neg hu]
          exact ih d
      · have ht' : ¬ r.msgType ≥ 16 := ht
        rw [if_neg ht]
        by_cases he : r.msg.type = 2 ∨ r.msg.type = 3
        · refine ⟨false, ?_⟩
          have : r.Ends := by
            rcases he with h | h
            · exact .inl h
            · exact .inr (.inl h)
          rw [if_pos he, evs, List.takeWhile_cons_of_neg (by simpa using this)]
          rfl
        · have hne : ¬ r.Ends := by
            rintro (h | h | h)
            · exact he (.inl h)
            · exact he (.inr h)
            · exact hfl h
          rw [if_neg he]
          have hev : evs (r :: xs) = evs xs := by
            unfold evs
            rw [List.takeWhile_cons_of_pos (by simpa using hne), List.filter_cons_of_neg (by simpa using ht')]
          rw [hev]
          exact ih d

/-- The reads as the daemon sees them. -/
private def reads (q : List (Option (List Report))) : List (Option (List NlMsg)) := q.map (Option.map (List.map Report.msg))

private def qevs (q : List (Option (List Report))) : List Event := q.flatMap (fun x => evs (x.getD []))

private theorem childLink_eq (c : Conf) : ∀ (q : List (Option (List Report))), (∀ x ∈ q, ∀ xs ∈ x, ∀ r ∈ xs, r.Fits) → ∀ d : Daemon,
    ∃ a b, q = a ++ b ∧ (q ≠ [] → a ≠ []) ∧
      childLink c (reads q) d = (daemonRun c (qevs a) d).bind (fun d' => .ok (d', reads b))
  | [], _, d => ⟨[], [], rfl, fun h => h, rfl⟩
  | none :: q, _, d => ⟨[none], q, rfl, by simp, rfl⟩
  | some xs :: q, hf, d => by
    obtain ⟨b, hb⟩ := nlRun_eq c xs (hf (some xs) List.mem_cons_self xs rfl) d
    have hc : childLink c (reads (some xs :: q)) d = (nlRun c (xs.map Report.msg) d).bind
      (fun r => if r.2 then childLink c (reads q) r.1 else .ok (r.1, reads q)) := rfl
    rw [hc, hb]
    cases b with
    | false =>
      refine ⟨[some xs], q, rfl, by simp, ?_⟩
      have : qevs [some xs] = evs xs := by simp [qevs]
      rw [this]
      cases daemonRun c (evs xs) d <;> rfl
    | true =>
      cases hd : daemonRun c (evs xs) d with
      | ok d' =>
        obtain ⟨a, b, hq, _, he⟩ := childLink_eq c q (fun x hx => hf x (List.mem_cons_of_mem _ hx)) d'
        refine ⟨some xs :: a, b, by rw [hq]; rfl, by simp, ?_⟩
        have : qevs (some xs :: a) = evs xs ++ qevs a := by simp [qevs]
        rw [this, daemonRun_append, hd]
        exact he
      | _ =>
        refine ⟨some xs :: q, [], by simp, by simp, ?_⟩
        have : qevs (some xs :: q) = evs xs ++ qevs q := by simp [qevs]
        rw [this, daemonRun_append, hd]
        rfl

private theorem childLinks_eq (c : Conf) : ∀ (n : Nat) (q : List (Option (List Report))), q.length ≤ n →
    (∀ x ∈ q, ∀ xs ∈ x, ∀ r ∈ xs, r.Fits) → ∀ d : Daemon, childLinks c n (reads q) d = daemonRun c (qevs q) d
  | 0, q, hn, _, d => by
    have : q = [] := List.length_eq_zero_iff.1 (by omega)
    subst this; rfl
  | n + 1, [], _, _, d => rfl
  | n + 1, x :: q, hn, hf, d => by
    obtain ⟨a, b, hq, hne, he⟩ := childLink_eq c (x :: q) hf d
    have hs : childLinks c (n + 1) (reads (x :: q)) d = (childLink c (reads (x :: q)) d).bind (fun r => childLinks c n r.2 r.1) := rfl
    rw [hs, he]
    have hqe : qevs (x :: q) = qevs a ++ qevs b := by rw [hq]; simp [qevs]
    rw [hqe, daemonRun_append]
    cases daemonRun c (qevs a) d with
    | ok d' =>
      have ha : 0 < a.length := List.length_pos_iff.2 (hne (by simp))
      have hl := congrArg List.length hq
      rw [List.length_append, List.length_cons] at hl
      rw [List.length_cons] at hn
      exact childLinks_eq c n b (by omega) (fun y hy => hf y (by rw [hq]; exact List.mem_append_right _ hy)) d'
    | _ => rfl

private theorem qevs_conveyed (q : List (Option (List Report))) :
    qevs q = ((conveyed q).filter (fun r => r.Up)).map (fun r => .link r.k r.m true true r.index) := by
  induction q with
  | nil => rfl
  | cons x q ih =>
    have : qevs (x :: q) = evs (x.getD []) ++ qevs q := by simp [qevs]
    rw [this, ih]
    unfold conveyed evs
    rw [List.flatMap_cons, List.filter_append, List.map_append]
    rfl

/-- However the kernel packs its reports into datagrams and whichever reads fail: the daemon reads no byte behind a message, handles every report
conveyed, in order, and its reaction consists of one round for each report of an Ethernet interface whose link is up, for that interface. -/
theorem C57_rounds_partial (c : Conf) (q : List (Option (List Report))) (hq : ∀ x ∈ q, ∀ rs ∈ x, ∀ r ∈ rs, r.Fits) (d : Daemon) :
    childLinks c q.length (q.map (Option.map (List.map Report.msg))) d =
      daemonRun c (((conveyed q).filter (fun r => r.Up)).map (fun r => .link r.k r.m true true r.index)) d := by
  rw [← qevs_conveyed]
  exact childLinks_eq c q.length q (Nat.le_refl _) hq d

/-- Reports of links that are down or of interfaces that are not Ethernet have no effect at all. -/
theorem C57_quiet (c : Conf) (q : List (Option (List Report))) (hq : ∀ x ∈ q, ∀ rs ∈ x, ∀ r ∈ rs, r.Fits ∧ ¬ r.Up) (d : Daemon) :
    childLinks c q.length (q.map (Option.map (List.map Report.msg))) d = .ok d := by
  rw [C57_rounds_partial c q (fun x hx rs hrs r hr => (hq x hx rs hrs r hr).1) d]
  have : (conveyed q).filter (fun r => r.Up) = [] := by
    rw [List.filter_eq_nil_iff]
    intro r hr
    unfold conveyed at hr
    obtain ⟨x, hx, hr⟩ := List.mem_flatMap.1 hr
    have hr := (List.takeWhile_sublist _).mem (List.mem_filter.1 hr).1
    cases x with
    | none => simp at hr
    | some rs => simpa using (hq _ hx rs rfl r hr).2
  rw [this]
  rfl

/-- After any history, when the kernel reports that the link of an Ethernet interface has come up, among any other reports of links that are down or
not Ethernet, exactly the messages due on that interface are sent at once, unless the limit for link events is reached. -/
theorem C57_up (c : Conf) (hsend : c.opts.testBit 1 = true)
    (d0 : Daemon) (h0 : Started d0) (es : List Event) (hes : ∀ e ∈ es, SaneEvent e) (d : Daemon) (hr : daemonRun c es d0 = .ok d)
    (q : List (Option (List Report))) (hq : ∀ x ∈ q, ∀ rs ∈ x, ∀ r ∈ rs, r.Fits) (a b : List Report) (r : Report)
    (hc : conveyed q = a ++ r :: b) (hu : r.Up) (hab : ∀ x ∈ a ++ b, ¬ x.Up)
    (addrs : List IfAddr) (hw : Workable c r.k addrs d) (hi : r.index ∈ (usables r.k addrs).map (·.index)) (hf : flaps d r.index ≤ 3) :
    ∃ d' new, childLinks c q.length (q.map (Option.map (List.map Report.msg))) d = .ok d' ∧ d'.tx = d.tx ++ new ∧
      ∀ j p, (j, p) ∈ new.map (fun t => (t.index, t.proto)) ↔ j = r.index ∧
        Due c r.k (usables r.k addrs) (fun i => ((withIndex d.child.netifs i).map (·.protos)).getD 0) j p := by
  obtain ⟨d', new, hs, ht, hn, _⟩ := C24_immediate c hsend d0 h0 es hes d hr r.k r.m addrs hw r.index hi hf
  refine ⟨d', new, ?_, ht, hn⟩
  have none_of : ∀ l : List Report, (∀ x ∈ l, ¬ x.Up) → l.filter (fun r => r.Up) = [] := by
    intro l hl
    rw [List.filter_eq_nil_iff]
    intro x hx
    simpa using hl x hx
  rw [C57_rounds_partial c q hq d, hc, List.filter_append, List.filter_cons_of_pos (by simpa using hu),
    none_of a (fun x hx => hab x (List.mem_append_left _ hx)), none_of b (fun x hx => hab x (List.mem_append_right _ hx))]
  show (daemonStep c d (.link r.k r.m true true r.index)).bind (daemonRun c []) = _
  rw [hs]
  rfl

/-- Messages are added, all on interface `i`. -/
private def Adds (i : Nat) (d d' : Daemon) : Prop := ∃ new, d'.tx = d.tx ++ new ∧ ∀ t ∈ new, t.index = i

private theorem Adds.same {i : Nat} {d d' : Daemon} (h : d'.tx = d.tx) : Adds i d d' := ⟨[], by rw [h, List.append_nil], fun _ h => nomatch h⟩

private theorem Adds.trans {i : Nat} {d d' d'' : Daemon} (h : Adds i d d') (h' : Adds i d' d'') : Adds i d d'' := by
  obtain ⟨a, ha, hai⟩ := h
  obtain ⟨b, hb, hbi⟩ := h'
  refine ⟨a ++ b, by rw [hb, ha, List.append_assoc], fun t ht => ?_⟩
  rcases List.mem_append.1 ht with ht | ht
  · exact hai t ht
  · exact hbi t ht

private theorem sendOne_adds {c : Conf} {n s : Netif} {d d' : Daemon} {p : Proto} (h : sendOne c n s d p = .ok d') : Adds s.index d d' := by
  unfold sendOne at h
  dsimp only at h
  repeat' split at h
  all_goals first
    | (injection h with h; subst h; exact .same rfl)
    | (injection h with h; subst h; exact ⟨_, rfl, fun t ht => by rw [List.mem_singleton.1 ht]⟩)
    | cases h

private theorem sendAll_adds {c : Conf} {n s : Netif} : ∀ (ps : List Proto) {d d' : Daemon}, sendAll c n s ps d = .ok d' → Adds s.index d d'
  | [], d, d', h => by injection h with h; subst h; exact .same rfl
  | p :: ps, d, d', h => by
    rw [sendAll] at h
    cases h1 : sendOne c n s d p with
    | ok d1 => rw [h1] at h; exact (sendOne_adds h1).trans (sendAll_adds ps h)
    | _ => rw [h1] at h; cases h

private theorem sendPort_adds {c : Conf} {m : Media} {i : Nat} {n : Netif} {d d' : Daemon} {j : Nat}
    (h : sendPort c (netifMedia m) (some i) n d j = .ok d') : Adds i d d' := by
  unfold sendPort at h
  split at h
  · injection h with h; subst h; exact .same rfl
  · next hj =>
    have hj : j = i := by
      refine Classical.byContradiction fun hne => hj ⟨by simp, fun e => hne ?_⟩
      injection e with e
      exact e.symm
    subst hj
    dsimp only at h
    split at h
    · injection h with h; subst h; exact .same rfl
    · next s hs =>
      have hsi : s.index = j := byIndex_index hs
      split at h
      · injection h with h; subst h; exact .same rfl
      · split at h
        · injection h with h; subst h; apply Adds.same; split <;> rfl
        · have := sendAll_adds _ h
          rw [show (netifMedia m s).index = j from (netifMedia_index m s).trans hsi] at this
          refine Adds.trans (.same ?_) this
          split <;> rfl

private theorem sendPorts_adds {c : Conf} {m : Media} {i : Nat} {n : Netif} : ∀ (js : List Nat) {d d' : Daemon},
    sendPorts c (netifMedia m) (some i) n js d = .ok d' → Adds i d d'
  | [], d, d', h => by injection h with h; subst h; exact .same rfl
  | j :: js, d, d', h => by
    rw [sendPorts] at h
    cases h1 : sendPort c (netifMedia m) (some i) n d j with
    | ok d1 => rw [h1] at h; exact (sendPort_adds h1).trans (sendPorts_adds js h)
    | _ => rw [h1] at h; cases h

private theorem sendNetifs_adds {c : Conf} {m : Media} {i : Nat} : ∀ (js : List Nat) {d d' : Daemon},
    sendNetifs c (netifMedia m) (some i) js d = .ok d' → Adds i d d'
  | [], d, d', h => by injection h with h; subst h; exact .same rfl
  | j :: js, d, d', h => by
    rw [sendNetifs] at h
    split at h
    · exact sendNetifs_adds js h
    · split at h
      · exact sendNetifs_adds js h
      · next n _ _ =>
        cases hp : ports d.child.netifs n with
        | ok ps =>
          rw [hp, Res.bind_ok] at h
          cases h1 : sendPorts c (netifMedia m) (some i) n (ps.map (·.index)) d with
          | ok d1 => rw [h1] at h; exact (sendPorts_adds _ h1).trans (sendNetifs_adds js h)
          | _ => rw [h1] at h; cases h
        | _ => rw [hp] at h; cases h

private theorem round_adds {c : Conf} {k : Kernel} {m : Media} {i : Nat} {d d' : Daemon} (h : sendRound c k m (some i) d = .ok d') :
    Adds i d d' := by
  unfold sendRound at h
  dsimp only at h
  repeat' split at h
  · injection h with h; subst h; exact .same rfl
  · injection h with h; subst h; exact .same rfl
  · injection h with h; subst h; exact .same rfl
  · exact Adds.trans (d' := (daemonFetch c k d).1) (.same rfl) (sendNetifs_adds _ h)

/-- Conversely every message sent because of reports is sent on an interface reported with its link up. -/
theorem C57_only (c : Conf) (d : Daemon) (q : List (Option (List Report))) (hq : ∀ x ∈ q, ∀ rs ∈ x, ∀ r ∈ rs, r.Fits) (d' : Daemon)
    (h : childLinks c q.length (q.map (Option.map (List.map Report.msg))) d = .ok d') :
    ∃ new, d'.tx = d.tx ++ new ∧ ∀ t ∈ new, ∃ r ∈ conveyed q, r.Up ∧ r.index = t.index := by
  rw [C57_rounds_partial c q hq d] at h
  have key : ∀ (l : List Report) (d : Daemon), daemonRun c (l.map (fun r => .link r.k r.m true true r.index)) d = .ok d' →
      ∃ new, d'.tx = d.tx ++ new ∧ ∀ t ∈ new, ∃ r ∈ l, r.index = t.index := by
    intro l
    induction l with
    | nil => intro d h; injection h with h; subst h; exact ⟨[], (List.append_nil _).symm, fun _ h => nomatch h⟩
    | cons r l ih =>
      intro d h
      have h : (sendRound c r.k r.m (some r.index) d).bind (daemonRun c (l.map (fun r => .link r.k r.m true true r.index))) = .ok d' := h
      cases h1 : sendRound c r.k r.m (some r.index) d with
      | ok d1 =>
        rw [h1] at h
        obtain ⟨a, ha, hai⟩ := round_adds h1
        obtain ⟨b, hb, hbi⟩ := ih d1 h
        refine ⟨a ++ b, by rw [hb, ha, List.append_assoc], fun t ht => ?_⟩
        rcases List.mem_append.1 ht with ht | ht
        · exact ⟨r, List.mem_cons_self, (hai t ht).symm⟩
        · obtain ⟨x, hx, e⟩ := hbi t ht
          exact ⟨x, List.mem_cons_of_mem _ hx, e⟩
      | _ => rw [h1] at h; cases h
  obtain ⟨new, h1, h2⟩ := key _ d h
  refine ⟨new, h1, fun t ht => ?_⟩
  obtain ⟨r, hr, e⟩ := h2 t ht
  rw [List.mem_filter] at hr
  exact ⟨r, hr.1, by simpa using hr.2, e⟩

/-- A report about eth0 of the sample system: link up, `flags` as for an Ethernet interface in use. -/
def upReport : Report where
  msgType := 16
  hwType := 1
  index := 2
  flags := 0x11043
  change := 0x10040
  k := sampleKernel

/-- The same with the link down. -/
def downReport : Report := { upReport with flags := 0x1003 }

/-- A report that something else has changed, such as the MTU. -/
def mtuReport : Report := { upReport with change := 0 }

/-- The interface is deleted. -/
def deletion : Report := { upReport with msgType := 17, change := 0xffffffff }

/-- The end of a dump. -/
def dumpEnd : Report := { upReport with msgType := 3 }

/-- The messages sent for reports after a periodic round. -/
def sentFor (q : List (Option (List Report))) : List (Nat × Proto) :=
  match daemonRun cTwo [.timer sampleKernel {} 0] dSys with
  | .ok d =>
    match childLinks cTwo q.length (q.map (Option.map (List.map Report.msg))) d with
    | .ok d' => (d'.tx.drop d.tx.length).map (fun t => (t.index, t.proto))
    | _ => []
  | _ => []

example : upReport.Fits ∧ upReport.Up ∧ downReport.Fits ∧ ¬ downReport.Up ∧
    conveyed [some [downReport, dumpEnd, downReport], none, some [upReport]] = [downReport] ++ upReport :: [] := by
  refine ⟨by decide, by decide, by decide, by decide, rfl⟩
example : sentFor [some [downReport, dumpEnd, downReport], none, some [upReport]] = [(2, .lldp), (2, .cdp)] := by decide +kernel

/-- What is missing for "the daemon advertises if a link comes up": any report about an interface in use has the same effect, even that of its
deletion, ... -/
theorem C57_any_report : sentFor [some [mtuReport]] = [(2, .lldp), (2, .cdp)] ∧ sentFor [some [deletion]] = [(2, .lldp), (2, .cdp)] := by
  decide +kernel

/-- ... and counts: after four changes of the MTU, each answered, the link coming up is not answered. -/
theorem C57_exhausted :
    sentFor [some [downReport, upReport]] = [(2, .lldp), (2, .cdp)] ∧
    sentFor [some [mtuReport, mtuReport, mtuReport, mtuReport, downReport, upReport]] =
      (List.replicate 4 [(2, .lldp), (2, .cdp)]).flatten := by
  decide +kernel

end Ladvd.Props
