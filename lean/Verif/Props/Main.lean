import Verif.Lemmas.Main
import Verif.Props.Send
/-!
# C35: the daemon's command line

Options are numbered as in /repo/src/common.h lines 216-230: 0 background, 1 sending, 2 receiving, 3 auto-detection, 4 once, 5 interfaces given,
6 debugging, 7 management interface given, 8 management address on all interfaces, 9 wireless, 10 tap, 11 set descriptions, 12 use descriptions,
13 interface name as chassis id.
-/

namespace Ladvd.Props

open Spec

theorem start_split {h : Host} {os : List Opt} {args : List Bytes} {s : MainSt} {pwd : Option (Nat × Nat)}
    (hs : mainStart h os args = .ok (s, pwd)) : ∃ s1, mainLoop h os {} = .ok s1 ∧
      s = (if args.length ≠ 0 then s1.on OPT_ARGV else s1) ∧ (s.opts.testBit 3 = true ∨ s.protos ≠ 0) ∧
      ((s.opts.testBit 6 = true ∧ pwd = none) ∨ (s.opts.testBit 6 = false ∧ ∃ p, h.user s.user = some p ∧ pwd = some p)) := by
  unfold mainStart at hs
  cases h1 : mainLoop h os {} with
  | ok s1 =>
    rw [h1] at hs
    simp only [bind, Res.bind_ok] at hs
    refine ⟨s1, rfl, ?_⟩
    generalize hs2 : (if args.length ≠ 0 then s1.on OPT_ARGV else s1) = s2 at hs
    split at hs
    · cases hs
    · rename_i hp
      have hp : s2.opts.testBit 3 = true ∨ s2.protos ≠ 0 := by
        rw [Bool.and_eq_true, Decidable.not_and_iff_or_not] at hp
        rcases hp with hp | hp
        · left; simpa [Opts.has, OPT_AUTO] using hp
        · right; simpa using hp
      split at hs
      · rename_i hd
        injection hs with hs
        injection hs with e1 e2
        subst e1
        exact ⟨rfl, hp, Or.inl ⟨hd, e2.symm⟩⟩
      · rename_i hd
        split at hs
        · cases hs
        · rename_i p hu
          injection hs with hs
          injection hs with e1 e2
          subst e1
          exact ⟨rfl, hp, Or.inr ⟨by simpa [Opts.has, OPT_DEBUG] using hd, p, hu, e2.symm⟩⟩
  | _ => rw [h1] at hs; cases hs

theorem given_any (os : List Opt) (k : Nat) (f : Char → List Nat) (ls : List Char) (hf : ∀ c, k ∈ f c ↔ c ∈ ls) :
    os.any (fun o => decide (k ∈ f o.ch)) = decide (given os ls) := by
  rw [Bool.eq_iff_iff, List.any_eq_true, decide_eq_true_eq]
  unfold given
  simp only [decide_eq_true_eq, hf]

theorem optOn_iff (k : Nat) (c : Char) : k ∈ optOn c ↔ c ∈ onLetters k := by
  unfold optOn onLetters
  split <;> split <;> simp_all [OPT_AUTO, OPT_RECV, OPT_DEBUG, OPT_MNETIF, OPT_MADDR, OPT_ONCE, OPT_CHASSIS_IF, OPT_TAP, OPT_WIRELESS,
    OPT_USEDESCR, OPT_IFDESCR]

theorem optOff_iff (c : Char) (k : Nat) : (k ∈ optOff c) ↔ (k = 0 ∧ c ∈ ['d', 'f']) ∨ (k = 1 ∧ c ∈ ['s']) := by
  unfold optOff
  split
  case h_4 => simp_all
  all_goals simp [OPT_DAEMON, OPT_SEND]

theorem start_bits {h : Host} {os : List Opt} {args : List Bytes} {s : MainSt} {pwd : Option (Nat × Nat)}
    (hs : mainStart h os args = .ok (s, pwd)) (k : Nat) : s.opts.testBit k =
      match k with
      | 0 => decide (¬ given os ['d', 'f'])
      | 1 => decide (¬ given os ['s'])
      | 5 => decide (args ≠ [])
      | k => decide (given os (onLetters k)) := by
  obtain ⟨s1, h1, h2, -, -⟩ := start_split hs
  have hr := loop_run h os _ _ h1
  have hb : s1.opts.testBit k = (((3 : Nat).testBit k || decide (given os (onLetters k))) &&
      !decide (given os ((if k = 0 then ['d', 'f'] else if k = 1 then ['s'] else [])))) := by
    rw [hr.bits k, given_any os k optOn _ (optOn_iff k), given_any os k optOff _ (fun c => ?_)]
    rw [optOff_iff]
    by_cases h0 : k = 0
    · subst h0; simp
    · by_cases h1 : k = 1
      · subst h1; simp
      · simp [h0, h1]
  have hb2 : s.opts.testBit k = (s1.opts.testBit k || (decide (args ≠ []) && decide (k = 5))) := by
    rw [h2]
    cases args with
    | nil => simp
    | cons a as =>
      have e : decide ((a :: as) ≠ []) = true := by simp
      rw [if_pos (by simp), on_bit, e, Bool.true_and]; rfl
  have hn : ∀ os, ¬ given os [] := by rintro os ⟨o, _, ho⟩; cases ho
  rw [hb2, hb]
  have hk : k = 0 ∨ k = 1 ∨ k = 5 ∨ (k ≠ 0 ∧ k ≠ 1 ∧ k ≠ 5) := by omega
  rcases hk with rfl | rfl | rfl | ⟨h0, h1, h5⟩
  · simp [onLetters, hn]
  · simp [onLetters, hn, show Nat.testBit 3 1 = true from rfl]
  · simp [onLetters, hn, show Nat.testBit 3 5 = false from rfl]
  · rw [if_neg h0, if_neg h1]
    have : Nat.testBit 3 k = false := by
      match k, h0, h1 with
      | k + 2, _, _ => rw [Nat.testBit_succ, Nat.testBit_succ]; simp
    rw [this, Bool.false_or, decide_eq_false (hn os), decide_eq_false h5, Bool.and_false, Bool.or_false, Bool.not_false, Bool.and_true]
    split
    · exact absurd rfl h0
    · exact absurd rfl h1
    · exact absurd rfl h5
    · rfl

/-- **C35**: every setting is exactly what the given options say, whatever their number and order. -/
theorem C35_options (h : Host) (os : List Opt) (args : List Bytes) (s : MainSt) (pwd : Option (Nat × Nat))
    (hs : mainStart h os args = .ok (s, pwd)) :
    (s.opts.testBit 0 = true ↔ ¬ given os ['d', 'f']) ∧
    (s.opts.testBit 1 = true ↔ ¬ given os ['s']) ∧
    (s.opts.testBit 2 = true ↔ given os ['a', 'r', 'y', 'z']) ∧
    (s.opts.testBit 3 = true ↔ given os ['a']) ∧
    (s.opts.testBit 4 = true ↔ given os ['o']) ∧
    (s.opts.testBit 5 = true ↔ args ≠ []) ∧
    (s.opts.testBit 6 = true ↔ given os ['d']) ∧
    (s.opts.testBit 7 = true ↔ given os ['m']) ∧
    (s.opts.testBit 8 = true ↔ given os ['n']) ∧
    (s.opts.testBit 9 = true ↔ given os ['w']) ∧
    (s.opts.testBit 10 = true ↔ given os ['t']) ∧
    (s.opts.testBit 11 = true ↔ given os ['y', 'z']) ∧
    (s.opts.testBit 12 = true ↔ given os ['y']) ∧
    (s.opts.testBit 13 = true ↔ given os ['q']) ∧
    (∀ p, (s.conf args).enabled p = true ↔ ∃ c, protoLetter p = some c ∧ given os [c]) ∧
    (pwd = none ↔ given os ['d']) := by
  have hb := start_bits hs
  obtain ⟨s1, h1, h2, -, hu⟩ := start_split hs
  have hr := loop_run h os _ _ h1
  refine ⟨?_, ?_, ?_, ?_, ?_, ?_, ?_, ?_, ?_, ?_, ?_, ?_, ?_, ?_, ?_, ?_⟩
  iterate 14 (rw [hb]; exact decide_eq_true_iff)
  · intro p
    have hp : s.protos = s1.protos := by rw [h2]; split <;> rfl
    unfold MainSt.conf
    dsimp only
    rw [hp, hr.protos, Nat.zero_testBit, Bool.false_or, List.any_eq_true]
    have he : ∀ c, optProto c = some p.num ↔ protoLetter p = some c := by
      intro c
      clear hs hb h1 h2 hu hr hp
      unfold optProto
      cases p <;> simp only [protoLetter, Proto.num] <;> split <;> simp_all [eq_comm]
    simp only [decide_eq_true_eq, he]
    unfold given
    constructor
    · rintro ⟨o, ho, hl⟩; exact ⟨_, hl, o, ho, List.mem_singleton_self _⟩
    · rintro ⟨c, hc, o, ho, hl⟩; exact ⟨o, ho, by rw [hc, List.mem_singleton.mp hl]⟩
  · rw [← decide_eq_true_iff (p := given os ['d']), show decide (given os ['d']) = s.opts.testBit 6 from (hb 6).symm]
    rcases hu with ⟨h6, hp⟩ | ⟨h6, p, -, hp⟩
    · rw [h6, hp]; simp
    · rw [h6, hp]; simp

/-- **C35**: the daemon starts exactly when every option is acceptable, a protocol or auto-detection is requested, and the user to switch to exists
(a debug run switches to none). -/
theorem C35_starts (h : Host) (os : List Opt) (args : List Bytes) :
    (∃ s pwd, mainStart h os args = .ok (s, pwd)) ↔ (∀ o ∈ os, ValidOpt h o) ∧ given os ['a', 'L', 'C', 'E', 'F', 'N'] ∧
      (given os ['d'] ∨ (h.user ((argsOf 'u' os).getLast?.getD (lit "ladvd"))).isSome = true) := by
  have hps : ∀ s1, mainLoop h os {} = .ok s1 → (s1.protos ≠ 0 ↔ given os ['L', 'C', 'E', 'F', 'N']) := by
    intro s1 h1
    have hr := loop_run h os _ _ h1
    have hc : ∀ c, (∃ k, optProto c = some k) ↔ c ∈ ['L', 'C', 'E', 'F', 'N'] := by
      intro c; unfold optProto; split <;> simp_all
    constructor
    · intro hz
      obtain ⟨k, hk⟩ := Nat.exists_testBit_of_ne_zero hz
      rw [hr.protos, Nat.zero_testBit, Bool.false_or, List.any_eq_true] at hk
      obtain ⟨o, ho, hl⟩ := hk
      exact ⟨o, ho, (hc _).mp ⟨k, of_decide_eq_true hl⟩⟩
    · rintro ⟨o, ho, hl⟩ hz
      obtain ⟨k, hk⟩ := (hc _).mpr hl
      have := hr.protos k
      rw [hz, Nat.zero_testBit, Bool.false_or] at this
      have h2 : (os.any fun o => decide (optProto o.ch = some k)) = true := List.any_eq_true.mpr ⟨o, ho, decide_eq_true hk⟩
      rw [h2] at this
      cases this
  have hg : given os ['a', 'L', 'C', 'E', 'F', 'N'] ↔ given os ['a'] ∨ given os ['L', 'C', 'E', 'F', 'N'] := by
    unfold given
    constructor
    · rintro ⟨o, ho, hl⟩
      rcases List.mem_cons.mp hl with h | h
      · exact Or.inl ⟨o, ho, by rw [h]; exact List.mem_singleton_self _⟩
      · exact Or.inr ⟨o, ho, h⟩
    · rintro (⟨o, ho, hl⟩ | ⟨o, ho, hl⟩)
      · exact ⟨o, ho, by rw [List.mem_singleton.mp hl]; exact List.mem_cons_self ..⟩
      · exact ⟨o, ho, List.mem_cons_of_mem _ hl⟩
  constructor
  · rintro ⟨s, pwd, hs⟩
    have hb := start_bits hs
    obtain ⟨s1, h1, h2, h3, h4⟩ := start_split hs
    have hr := loop_run h os _ _ h1
    refine ⟨(loop_ok h os {}).mp ⟨s1, h1⟩, ?_, ?_⟩
    · rw [hg]
      rcases h3 with h3 | h3
      · left; rw [hb] at h3; exact of_decide_eq_true h3
      · right
        refine (hps s1 h1).mp ?_
        rw [h2] at h3
        split at h3 <;> exact h3
    · rcases h4 with ⟨h4, -⟩ | ⟨-, p, h4, -⟩
      · left; rw [hb] at h4; exact of_decide_eq_true h4
      · right
        have : s.user = s1.user := by rw [h2]; split <;> rfl
        rw [this, hr.user] at h4
        exact Option.isSome_iff_exists.mpr ⟨p, h4⟩
  · rintro ⟨hv, hp, hu⟩
    obtain ⟨s1, h1⟩ := (loop_ok h os {}).mpr hv
    have hr := loop_run h os _ _ h1
    have hbit : ∀ k, (if args.length ≠ 0 then s1.on OPT_ARGV else s1).opts.testBit k = (s1.opts.testBit k || (decide (args ≠ []) && decide (k = 5))) := by
      intro k
      cases args with
      | nil => simp
      | cons a as =>
        have e : decide ((a :: as) ≠ []) = true := by simp
        rw [if_pos (by simp), on_bit, e, Bool.true_and]; rfl
    have hfld : (if args.length ≠ 0 then s1.on OPT_ARGV else s1).protos = s1.protos ∧ (if args.length ≠ 0 then s1.on OPT_ARGV else s1).user = s1.user := by
      split <;> exact ⟨rfl, rfl⟩
    have hone : ∀ k, k = 3 ∨ k = 6 → s1.opts.testBit k = decide (given os (onLetters k)) := by
      intro k hk
      rw [hr.bits k, given_any os k optOn _ (optOn_iff k), given_any os k optOff [] (fun c => ?_)]
      · have hn : ¬ given os [] := by rintro ⟨o, _, ho⟩; cases ho
        rcases hk with rfl | rfl
        · simp [hn, show Nat.testBit 3 3 = false from rfl]
        · simp [hn, show Nat.testBit 3 6 = false from rfl]
      · rw [optOff_iff]
        rcases hk with rfl | rfl <;> simp
    unfold mainStart
    rw [h1]
    simp only [bind, Res.bind_ok]
    generalize (if args.length ≠ 0 then s1.on OPT_ARGV else s1) = s2 at hbit hfld ⊢
    rw [if_neg]
    · split
      · exact ⟨_, _, rfl⟩
      · rename_i hd
        have hd' : ¬ given os ['d'] := by
          intro hg
          apply hd
          unfold Opts.has
          rw [show OPT_DEBUG = 6 from rfl, hbit, hone 6 (Or.inr rfl)]
          simp [onLetters, hg]
        rw [hfld.2, hr.user]
        obtain ⟨p, hp⟩ := Option.isSome_iff_exists.mp (hu.resolve_left hd')
        rw [show ((argsOf 'u' os).getLast?.getD (MainSt.user {})) = (argsOf 'u' os).getLast?.getD (lit "ladvd") from rfl, hp]
        exact ⟨_, _, rfl⟩
    · rw [hfld.1, Bool.and_eq_true]
      rintro ⟨ha, hz⟩
      unfold Opts.has at ha
      rw [show OPT_AUTO = 3 from rfl, hbit, hone 3 (Or.inl rfl)] at ha
      rcases hg.mp hp with h | h
      · rw [show onLetters 3 = ['a'] from rfl, decide_eq_true h] at ha; cases ha
      · exact (hps s1 h1).mpr h (of_decide_eq_true hz)

/-- **C35**: the values given with options: the names to exclude in order, and for the others the last one given.  Only an address that is not the
name of an interface is taken as address. -/
theorem C35_values (h : Host) (os : List Opt) (args : List Bytes) (s : MainSt) (pwd : Option (Nat × Nat))
    (hs : mainStart h os args = .ok (s, pwd)) :
    (s.conf args).names = args ∧
    (s.conf args).excl = (argsOf 'e' os).map (fun a => a.take 15) ∧
    s.sys.country = ((argsOf 'c' os).getLast?.map capitals).getD [] ∧
    s.sys.location = ((argsOf 'l' os).getLast?.map (fun a => a.take 255)).getD [] ∧
    (s.conf args).mgmt.mifname = ((argsOf 'm' os).filter (fun a => h.hasIf a)).getLast? ∧
    (s.conf args).mgmt.maddr4 = (((argsOf 'm' os).filter (fun a => !h.hasIf a)).filterMap h.pton4).getLast?.getD (Mgmt.maddr4 {}) ∧
    (s.conf args).mgmt.maddr6 =
      (((argsOf 'm' os).filter (fun a => !h.hasIf a && (h.pton4 a).isNone)).filterMap h.pton6).getLast?.getD (Mgmt.maddr6 {}) ∧
    (¬ given os ['d'] → ∃ p, pwd = some p ∧ h.user ((argsOf 'u' os).getLast?.getD (lit "ladvd")) = some p) := by
  have hb := start_bits hs
  obtain ⟨s1, h1, h2, -, hu⟩ := start_split hs
  have hr := loop_run h os _ _ h1
  have hf : s.excl = s1.excl ∧ s.country = s1.country ∧ s.location = s1.location ∧ s.mgmt = s1.mgmt ∧ s.user = s1.user := by
    rw [h2]; split <;> exact ⟨rfl, rfl, rfl, rfl, rfl⟩
  refine ⟨rfl, ?_, ?_, ?_, ?_, ?_, ?_, ?_⟩
  · exact (hf.1.trans hr.excl).trans (List.nil_append _)
  · exact hf.2.1.trans hr.country
  · exact hf.2.2.1.trans hr.location
  · show s.mgmt.mifname = _
    rw [hf.2.2.2.1, hr.mifname]
    cases ((argsOf 'm' os).filter (fun a => h.hasIf a)).getLast? <;> rfl
  · exact (congrArg _ hf.2.2.2.1).trans hr.maddr4
  · exact (congrArg _ hf.2.2.2.1).trans hr.maddr6
  · intro hd
    rcases hu with ⟨h6, -⟩ | ⟨-, p, hp, hq⟩
    · rw [hb] at h6; exact absurd (of_decide_eq_true h6) hd
    · refine ⟨p, hq, ?_⟩
      rw [hf.2.2.2.2, hr.user] at hp
      exact hp

/-- A list with at most one element is determined by its elements. -/
theorem perm_one {α : Type} {a b : List α} (h : a.Perm b) (hl : a.length ≤ 1) : a = b := by
  match a, hl with
  | [], _ => exact (List.nil_perm.mp h).symm
  | [x], _ => exact List.singleton_perm.mp h

/-- **C35**: the order of the options does not matter, for options whose last argument counts as long as they are given once: a permuted command line
starts the daemon with the same settings (the excluded names may be listed in another order). -/
theorem C35_order (h : Host) (os os' : List Opt) (hp : os.Perm os') (h1 : ∀ c ∈ ['u', 'c', 'l', 'm'], (argsOf c os).length ≤ 1)
    (args : List Bytes) (s : MainSt) (pwd : Option (Nat × Nat)) (hs : mainStart h os args = .ok (s, pwd)) :
    ∃ s', mainStart h os' args = .ok (s', pwd) ∧ s'.excl.Perm s.excl ∧ s' = { s with excl := s'.excl } := by
  have hargs : ∀ c, (argsOf c os).Perm (argsOf c os') := fun c => (hp.filter _).map _
  have heq : ∀ c ∈ ['u', 'c', 'l', 'm'], argsOf c os = argsOf c os' := fun c hc => perm_one (hargs c) (h1 c hc)
  have hgiven : ∀ ls, given os ls ↔ given os' ls := by
    intro ls
    unfold given
    constructor
    · rintro ⟨o, ho, hl⟩; exact ⟨o, hp.mem_iff.mp ho, hl⟩
    · rintro ⟨o, ho, hl⟩; exact ⟨o, hp.mem_iff.mpr ho, hl⟩
  have hst := (C35_starts h os args).mp ⟨s, pwd, hs⟩
  obtain ⟨s', pwd', hs'⟩ := (C35_starts h os' args).mpr
    ⟨fun o ho => hst.1 o (hp.mem_iff.mpr ho), (hgiven _).mp hst.2.1, by rw [← heq 'u' (by simp), ← hgiven]; exact hst.2.2⟩
  have hb := start_bits hs
  have hb' := start_bits hs'
  obtain ⟨t, t1, t2, -, t4⟩ := start_split hs
  obtain ⟨t', t1', t2', -, t4'⟩ := start_split hs'
  have hr := loop_run h os _ _ t1
  have hr' := loop_run h os' _ _ t1'
  have hopts : s'.opts = s.opts := by
    apply Nat.eq_of_testBit_eq
    intro k
    rw [hb k, hb' k]
    split <;> simp only [hgiven]
  have hprot : t'.protos = t.protos := by
    apply Nat.eq_of_testBit_eq
    intro k
    rw [hr.protos, hr'.protos]
    congr 1
    rw [Bool.eq_iff_iff, List.any_eq_true, List.any_eq_true]
    simp only [hp.mem_iff]
  have huser : t'.user = t.user := by rw [hr.user, hr'.user, heq 'u' (by simp)]
  have hcountry : t'.country = t.country := by rw [hr.country, hr'.country, heq 'c' (by simp)]
  have hloc : t'.location = t.location := by rw [hr.location, hr'.location, heq 'l' (by simp)]
  have hm : t'.mgmt = t.mgmt := by
    have e1 : t'.mgmt.mifname = t.mgmt.mifname := by rw [hr.mifname, hr'.mifname, heq 'm' (by simp)]
    have e2 : t'.mgmt.maddr4 = t.mgmt.maddr4 := by rw [hr.maddr4, hr'.maddr4, heq 'm' (by simp)]
    have e3 : t'.mgmt.maddr6 = t.mgmt.maddr6 := by rw [hr.maddr6, hr'.maddr6, heq 'm' (by simp)]
    generalize t'.mgmt = a at *
    generalize t.mgmt = b at *
    cases a; cases b
    simp_all
  have hf : ∀ (x y : MainSt), x = (if args.length ≠ 0 then y.on OPT_ARGV else y) →
      x.excl = y.excl ∧ x.country = y.country ∧ x.location = y.location ∧ x.mgmt = y.mgmt ∧ x.user = y.user ∧ x.protos = y.protos := by
    intro x y e
    rw [e]; split <;> exact ⟨rfl, rfl, rfl, rfl, rfl, rfl⟩
  obtain ⟨f1, f2, f3, f4, f5, f6⟩ := hf _ _ t2
  obtain ⟨g1, g2, g3, g4, g5, g6⟩ := hf _ _ t2'
  have hpwd : pwd' = pwd := by
    rcases t4 with ⟨a1, a2⟩ | ⟨a1, p, a2, a3⟩ <;> rcases t4' with ⟨b1, b2⟩ | ⟨b1, q, b2, b3⟩
    · rw [a2, b2]
    · rw [hopts, a1] at b1; cases b1
    · rw [hopts, a1] at b1; cases b1
    · rw [a3, b3]
      rw [g5, huser, ← f5, a2] at b2
      exact b2.symm
  subst hpwd
  refine ⟨s', hs', ?_, ?_⟩
  · rw [f1, g1, hr.excl, hr'.excl]
    exact ((hargs 'e').map _).symm
  · have e1 := g5.trans (huser.trans f5.symm)
    have e2 := g4.trans (hm.trans f4.symm)
    have e3 := g2.trans (hcountry.trans f2.symm)
    have e4 := g3.trans (hloc.trans f3.symm)
    have e5 := g6.trans (hprot.trans f6.symm)
    clear hs hs' hb hb' t2 t2' t4 t4' hf f1 f2 f3 f4 f5 f6 g1 g2 g3 g4 g5 g6
    cases s'
    cases s
    simp_all

/-- **C35**: with `-s` nothing is ever sent, whatever happens. -/
theorem C35_silent (h : Host) (os : List Opt) (args : List Bytes) (s : MainSt) (pwd : Option (Nat × Nat))
    (hs : mainStart h os args = .ok (s, pwd)) (hg : given os ['s']) (d0 : Daemon) (h0 : Started d0) (es : List Event) (d : Daemon)
    (hr : daemonRun (s.conf args) es d0 = .ok d) : d.tx = d0.tx := by
  refine run_induction (P := fun _ d => d.tx = d0.tx) rfl ?_ es d hr
  intro es e d d' hr hp hst
  obtain ⟨new, hn, ha⟩ := C22_permitted (s.conf args) d0 h0.1 h0.2.1 es d hr e d' hst
  cases new with
  | nil => rw [hn, hp, List.append_nil]
  | cons t _ =>
    have := (ha t (List.mem_cons_self ..)).1
    exact absurd hg ((C35_options h os args s pwd hs).2.1.mp this)

/-- **C35**: without `-a` only the protocols asked for on the command line are ever sent. -/
theorem C35_asked (h : Host) (os : List Opt) (args : List Bytes) (s : MainSt) (pwd : Option (Nat × Nat))
    (hs : mainStart h os args = .ok (s, pwd)) (hg : ¬ given os ['a']) (d0 : Daemon) (h0 : Started d0) (ht0 : d0.tx = []) (es : List Event) (d : Daemon)
    (hr : daemonRun (s.conf args) es d0 = .ok d) : ∀ t ∈ d.tx, ∃ c, protoLetter t.proto = some c ∧ given os [c] := by
  have ho := C35_options h os args s pwd hs
  refine run_induction (P := fun _ d => ∀ t ∈ d.tx, ∃ c, protoLetter t.proto = some c ∧ given os [c]) (by rw [ht0]; intro t ht; cases ht) ?_ es d hr
  intro es e d d' hr hp hst
  obtain ⟨new, hn, ha⟩ := C22_permitted (s.conf args) d0 h0.1 h0.2.1 es d hr e d' hst
  intro t ht
  rw [hn] at ht
  rcases List.mem_append.mp ht with ht | ht
  · exact hp t ht
  · obtain ⟨-, n, -, x, -, -, -, -, -, hpm⟩ := ha t ht
    rcases hpm with hpm | ⟨h3, -⟩
    · exact (ho.2.2.2.2.2.2.2.2.2.2.2.2.2.2.1 t.proto).mp hpm
    · exact absurd (ho.2.2.2.1.mp h3) hg

/-- A host with two interfaces and the user `ladvd`. -/
def sampleHost : Host :=
  { hasIf := fun n => decide (n = lit "eth0") || decide (n = lit "br0"),
    pton4 := fun n => if n = lit "10.0.0.1" then some [10, 0, 0, 1] else none,
    user := fun n => if n = lit "ladvd" then some (110, 120) else none }

/-- `-a -e br0 -c nl -m eth0 -z -f`. -/
def sampleOpts : List Opt := [⟨'a', []⟩, ⟨'e', lit "br0"⟩, ⟨'c', lit "nl"⟩, ⟨'m', lit "eth0"⟩, ⟨'z', []⟩, ⟨'f', []⟩]

example : mainStart sampleHost sampleOpts [lit "eth0"] =
    .ok ({ opts := 2 + 4 + 8 + 32 + 128 + 2048, user := lit "ladvd", excl := [lit "br0"], mgmt := { mifname := some (lit "eth0") },
           country := lit "NL", location := [], protos := 0 }, some (110, 120)) := by decide +kernel
example : mainStart sampleHost sampleOpts.reverse [lit "eth0"] = mainStart sampleHost sampleOpts [lit "eth0"] := by decide +kernel
example : ∀ c ∈ ['u', 'c', 'l', 'm'], (argsOf c sampleOpts).length ≤ 1 := by decide +kernel
-- no protocol
example : mainStart sampleHost [⟨'r', []⟩] [] = .fail := by decide +kernel
-- unknown user
example : mainStart sampleHost [⟨'a', []⟩, ⟨'u', lit "nobody"⟩] [] = .abort := by decide +kernel
-- a silent run and one without auto-detection
example : mainStart sampleHost [⟨'L', []⟩, ⟨'s', []⟩] [] = .ok ({ opts := 1, protos := 1 }, some (110, 120)) := by decide +kernel
example : given [⟨'L', []⟩, ⟨'s', []⟩] ['s'] ∧ ¬ given [⟨'L', []⟩, ⟨'s', []⟩] ['a'] := by decide
example : Started {} := by decide

/-- The order matters for an option given twice: the last one counts. -/
theorem C35_twice : mainStart sampleHost [⟨'a', []⟩, ⟨'c', lit "nl"⟩, ⟨'c', lit "be"⟩] [] ≠
    mainStart sampleHost [⟨'a', []⟩, ⟨'c', lit "be"⟩, ⟨'c', lit "nl"⟩] [] := by decide +kernel

/-- A country of two characters that are no letters is accepted, /repo/src/main.c lines 160-167. -/
theorem C35_country : mainStart sampleHost [⟨'a', []⟩, ⟨'c', lit "1!"⟩] [] =
    .ok ({ opts := 15, country := lit "1!" }, some (110, 120)) := by decide +kernel

end Ladvd.Props
