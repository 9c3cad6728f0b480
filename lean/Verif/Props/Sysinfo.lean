import Verif.Lemmas.Sysinfo
import Verif.Lemmas.Keep
import Verif.Props.Send
/-!
# C49: what the daemon knows about its system
-/

namespace Ladvd.Props

open Spec

/-- A start in its two steps. -/
theorem startUp_split {h : Host} {e : SysEnv} {os : List Opt} {args : List Bytes} {c : Conf} {pwd : Option (Nat × Nat)} {d : Daemon}
    (hs : startUp h e os args = .ok (c, pwd, d)) :
    ∃ s, mainStart h os args = .ok (s, pwd) ∧ c = s.conf args ∧ sysinfoFetch e s.sys = .ok d.sys ∧ d = { sys := d.sys } := by
  unfold startUp at hs
  cases hm : mainStart h os args with
  | ok p =>
    obtain ⟨s, pwd'⟩ := p
    rw [hm] at hs
    simp only [Res.bind_eq, Res.bind_ok] at hs
    cases hf : sysinfoFetch e s.sys with
    | ok sys =>
      rw [hf] at hs
      simp only [Res.bind_ok, Res.pure_eq] at hs
      injection hs with hs
      injection hs with h1 hs
      injection hs with h2 h3
      subst h1 h2 h3
      exact ⟨s, rfl, rfl, hf, rfl⟩
    | fail => rw [hf] at hs; cases hs
    | oob => rw [hf] at hs; cases hs
    | abort => rw [hf] at hs; cases hs
    | stuck => rw [hf] at hs; cases hs
  | fail => rw [hm] at hs; cases hs
  | oob => rw [hm] at hs; cases hs
  | abort => rw [hm] at hs; cases hs
  | stuck => rw [hm] at hs; cases hs

/-- **C49**: the start succeeds exactly when the command line is acceptable, `lsb_release` can be tried and the kernel tells its names. -/
theorem C49_starts (h : Host) (e : SysEnv) (he : SysEnvOk e) (os : List Opt) (args : List Bytes) :
    (∃ r, startUp h e os args = .ok r) ↔ (∃ r, mainStart h os args = .ok r) ∧ e.lsbRun = true ∧ e.uname.isSome = true := by
  constructor
  · rintro ⟨⟨c, pwd, d⟩, hs⟩
    obtain ⟨s, h1, -, h3, -⟩ := startUp_split hs
    refine ⟨⟨_, h1⟩, ?_⟩
    unfold sysinfoFetch at h3
    cases hl : e.lsbRun with
    | false => rw [hl] at h3; cases h3
    | true =>
      refine ⟨rfl, ?_⟩
      cases hu : e.uname with
      | some u => rfl
      | none =>
        obtain ⟨x, hx, -⟩ := lsbDescr_ok e
        rw [hl, hu, hx] at h3
        cases h3
  · rintro ⟨⟨⟨s, pwd⟩, h1⟩, h2, h3⟩
    obtain ⟨u, hu⟩ := Option.isSome_iff_exists.mp h3
    obtain ⟨s', dd, r, a, hf, -⟩ := sysinfoFetch_ok e he h2 hu s.sys rfl
    refine ⟨(s.conf args, pwd, { sys := s' }), ?_⟩
    unfold startUp
    rw [h1]
    simp only [Res.bind_eq, Res.bind_ok]
    rw [hf]
    rfl

/-- What a successful start knows, in full. -/
theorem start_facts {h : Host} {e : SysEnv} (he : SysEnvOk e) {os : List Opt} {args : List Bytes} {c : Conf} {pwd : Option (Nat × Nat)} {d : Daemon}
    (hs : startUp h e os args = .ok (c, pwd, d)) :
    ∃ s u dist r a, mainStart h os args = .ok (s, pwd) ∧ c = s.conf args ∧ e.uname = some u ∧ d = { sys := d.sys } ∧
      Distribution e dist ∧ HostName e u d.sys.hostname ∧
      d.sys = { s.sys with
        utsStr := (words (dist.toList ++ [u.sysname, u.release, u.version, u.machine])).take 255
        platform := (words (dist.toList ++ (if dist.isSome then [u.sysname, u.machine] else [u.sysname, u.release, u.machine]))).take 255
        utsRel := d.sys.utsRel, hostname := d.sys.hostname
        hinv := { hwRevision := fileLine 32 (e.dmi .hw), fwRevision := fileLine 32 (e.dmi .fw), swRevision := u.release.take 32
                  serialNumber := fileLine 32 (e.dmi .serial), manufacturer := fileLine 32 (e.dmi .manufacturer)
                  modelName := fileLine 32 (e.dmi .model), assetId := [] }
        cap := if r then 12 else 4, capActive := if a then 12 else 4
        lldpmedDevtype := 1
        capLldpmed := if s.country ≠ [] ∧ s.location ≠ [] then 37 else 33 } ∧
      d.sys.utsRel.length = 3 ∧
      (∀ l, Numbers u.release l → NoMinus u.release → (∀ ds ∈ l, numValue ds < 9223372036854775808) →
        d.sys.utsRel = (l.map octet ++ [0, 0, 0]).take 3) ∧
      (a = true → r = true) ∧
      ((∀ c ∈ [e.forward4, e.forward6], ∀ v, Numeral (fileLine 255 c) v → -2147483648 ≤ v ∧ v < 2147483648) →
        (a = true ↔ ∃ c ∈ [e.forward4, e.forward6], Numeral (fileLine 255 c) 1) ∧
        (r = true ↔ ∃ c ∈ [e.forward4, e.forward6], fileLine 255 c ≠ [])) := by
  obtain ⟨s, h1, h2, h3, h4⟩ := startUp_split hs
  obtain ⟨-, hl, hu⟩ := (C49_starts h e he os args).mp ⟨_, hs⟩
  obtain ⟨u, hu⟩ := Option.isSome_iff_exists.mp hu
  obtain ⟨s', dist, r, a, hf, f1, f2, f3, f4, f5, f6, f7⟩ := sysinfoFetch_ok e he hl hu s.sys rfl
  rw [h3] at hf
  injection hf with hf
  subst hf
  exact ⟨s, u, dist, r, a, h1, h2, hu, h4, f1, f2, f3, f4, f5, f6, f7⟩

/-- **C49**: the texts that describe the system: the distribution (if known) and what the kernel calls itself, cut to 255 bytes, and the name of the
host. -/
theorem C49_texts (h : Host) (e : SysEnv) (he : SysEnvOk e) (os : List Opt) (args : List Bytes) (c : Conf) (pwd : Option (Nat × Nat)) (d : Daemon)
    (hs : startUp h e os args = .ok (c, pwd, d)) :
    ∃ u, e.uname = some u ∧ HostName e u d.sys.hostname ∧ ∃ dist, Distribution e dist ∧
      d.sys.utsStr = (words (dist.toList ++ [u.sysname, u.release, u.version, u.machine])).take 255 ∧
      d.sys.platform = (words (dist.toList ++ [u.sysname] ++ (if dist = none then [u.release] else []) ++ [u.machine])).take 255 := by
  obtain ⟨s, u, dist, r, a, -, -, hu, -, h1, h2, h3, -⟩ := start_facts he hs
  refine ⟨u, hu, h2, dist, h1, by rw [h3], ?_⟩
  rw [h3]
  cases dist <;> rfl

/-- **C49**: the distribution is determined by the answer of `lsb_release`. -/
theorem C49_distribution_unique (e : SysEnv) (a b : Option Bytes) (ha : Distribution e a) (hb : Distribution e b) : a = b := by
  have uq : ∀ t r r', Unquoted t r → Unquoted t r' → r = r' := by
    intro t r r' h h'
    rcases h with ⟨rfl, rfl⟩ | rfl | ⟨rfl, h⟩
    · rcases h' with ⟨-, rfl⟩ | h' | ⟨rfl, h'⟩
      · rfl
      · have := congrArg List.length h'; simp at this
      · simp at h'
    · rcases h' with ⟨h', -⟩ | h' | ⟨-, h'⟩
      · have := congrArg List.length h'; simp at this
      · simpa using h'
      · exact absurd ⟨rfl, by rw [List.getLast?_concat]⟩ h'
    · rcases h' with ⟨rfl, -⟩ | rfl | ⟨rfl, -⟩
      · simp at h
      · exact absurd ⟨rfl, by rw [List.getLast?_concat]⟩ h
      · rfl
  cases a with
  | none =>
    cases b with
    | none => rfl
    | some b =>
      rcases ha with ha | ha
      · rw [hb.1] at ha; cases ha
      · exact absurd ha hb.2.1
  | some a =>
    cases b with
    | none =>
      rcases hb with hb | hb
      · rw [ha.1] at hb; cases hb
      · exact absurd hb ha.2.1
    | some b => exact congrArg some (uq _ _ _ ha.2.2 hb.2.2)

/-- **C49**: the hardware inventory: the kernel release and the first lines of the inventory files, cut to the 32 bytes of the standard, empty where
there is no file. -/
theorem C49_inventory (h : Host) (e : SysEnv) (he : SysEnvOk e) (os : List Opt) (args : List Bytes) (c : Conf) (pwd : Option (Nat × Nat)) (d : Daemon)
    (hs : startUp h e os args = .ok (c, pwd, d)) :
    ∃ u, e.uname = some u ∧ d.sys.hinv.swRevision = u.release.take 32 ∧ d.sys.hinv.hwRevision = fileLine 32 (e.dmi .hw) ∧
      d.sys.hinv.fwRevision = fileLine 32 (e.dmi .fw) ∧ d.sys.hinv.serialNumber = fileLine 32 (e.dmi .serial) ∧
      d.sys.hinv.manufacturer = fileLine 32 (e.dmi .manufacturer) ∧ d.sys.hinv.modelName = fileLine 32 (e.dmi .model) ∧
      d.sys.hinv.assetId = [] := by
  obtain ⟨s, u, dist, r, a, -, -, hu, -, -, -, h3, -⟩ := start_facts he hs
  refine ⟨u, hu, ?_⟩
  rw [h3]
  exact ⟨rfl, rfl, rfl, rfl, rfl, rfl, rfl⟩

/-- **C49**: the version announced with EDP consists of the first three numbers of the kernel release, each modulo 256, with zeroes for missing ones.
What is missing: numbers with a minus sign that does not follow a digit are taken as negative, see `C49_minus`. -/
theorem C49_release_partial (h : Host) (e : SysEnv) (he : SysEnvOk e) (os : List Opt) (args : List Bytes) (c : Conf) (pwd : Option (Nat × Nat)) (d : Daemon)
    (hs : startUp h e os args = .ok (c, pwd, d)) (u : Uname) (hu : e.uname = some u) :
    d.sys.utsRel.length = 3 ∧
    ∀ l, Numbers u.release l → NoMinus u.release → (∀ ds ∈ l, numValue ds < 2 ^ 63) →
      ∀ i, i < 3 → d.sys.utsRel[i]?.map UInt8.toNat = some (((l[i]?.map numValue).getD 0) % 256) := by
  obtain ⟨s, u', dist, r, a, -, -, hu', -, -, -, -, h4, h5, -⟩ := start_facts he hs
  rw [hu] at hu'
  injection hu' with hu'
  subst hu'
  refine ⟨h4, ?_⟩
  intro l h1 h2 h3 i hi
  rw [h5 l h1 h2 h3, List.getElem?_take_of_lt hi]
  by_cases hl : i < l.length
  · rw [List.getElem?_append_left (by simpa using hl), List.getElem?_map, List.getElem?_eq_getElem hl]
    simp [octet]
  · rw [List.getElem?_append_right (by simp; omega), List.getElem?_eq_none (l := l) (by omega)]
    have : i - (l.map octet).length < 3 := by omega
    generalize i - (l.map octet).length = j at this
    match j, this with
    | 0, _ => rfl
    | 1, _ => rfl
    | 2, _ => rfl

/-- **C49**: the capabilities at the start: a station; a router if the kernel can forward packets, an active one if it does for IPv4 or IPv6. -/
theorem C49_capabilities (h : Host) (e : SysEnv) (he : SysEnvOk e) (os : List Opt) (args : List Bytes) (c : Conf) (pwd : Option (Nat × Nat)) (d : Daemon)
    (hs : startUp h e os args = .ok (c, pwd, d))
    (hint : ∀ f ∈ [e.forward4, e.forward6], ∀ v, Numeral (fileLine 255 f) v → -2147483648 ≤ v ∧ v < 2147483648) :
    ∀ b, (d.sys.cap.testBit b = true ↔ b = 2 ∨ (b = 3 ∧ ∃ f ∈ [e.forward4, e.forward6], fileLine 255 f ≠ [])) ∧
      (d.sys.capActive.testBit b = true ↔ b = 2 ∨ (b = 3 ∧ ∃ f ∈ [e.forward4, e.forward6], Numeral (fileLine 255 f) 1)) := by
  obtain ⟨s, u, dist, r, a, -, -, -, -, -, -, h3, -, -, -, h7⟩ := start_facts he hs
  obtain ⟨ha, hr⟩ := h7 hint
  have bits : ∀ b, (Nat.testBit 12 b = true ↔ b = 2 ∨ b = 3) ∧ (Nat.testBit 4 b = true ↔ b = 2) := by
    intro b
    by_cases hb : b < 4
    · match b, hb with
      | 0, _ => decide
      | 1, _ => decide
      | 2, _ => decide
      | 3, _ => decide
    · have h12 : Nat.testBit 12 b = false := Nat.testBit_lt_two_pow (Nat.lt_of_lt_of_le (by decide : 12 < 2 ^ 4) (Nat.pow_le_pow_right (by omega) (by omega)))
      have h4 : Nat.testBit 4 b = false := Nat.testBit_lt_two_pow (Nat.lt_of_lt_of_le (by decide : 4 < 2 ^ 4) (Nat.pow_le_pow_right (by omega) (by omega)))
      rw [h12, h4]
      constructor <;> (constructor <;> intro h <;> first | omega | cases h)
  intro b
  rw [← ha, ← hr]
  have e1 : d.sys.cap = if r then 12 else 4 := by rw [h3]
  have e2 : d.sys.capActive = if a then 12 else 4 := by rw [h3]
  rw [e1, e2]
  cases r <;> cases a <;> simp [(bits b).1, (bits b).2]

/-- **C49**: LLDP-MED: an endpoint of class I with an inventory, and with a location exactly if both country and location were given; they are announced
as given. -/
theorem C49_med (h : Host) (e : SysEnv) (he : SysEnvOk e) (os : List Opt) (args : List Bytes) (c : Conf) (pwd : Option (Nat × Nat)) (d : Daemon)
    (hs : startUp h e os args = .ok (c, pwd, d)) :
    d.sys.lldpmedDevtype = 1 ∧
    (∀ b, d.sys.capLldpmed.testBit b = true ↔ b = 0 ∨ b = 5 ∨ (b = 2 ∧ given os ['c'] ∧ given os ['l'])) ∧
    d.sys.country = ((argsOf 'c' os).getLast?.map capitals).getD [] ∧
    d.sys.location = ((argsOf 'l' os).getLast?.map (fun a => a.take 255)).getD [] := by
  obtain ⟨s, u, dist, r, a, hm, -, -, -, -, -, h3, -⟩ := start_facts he hs
  obtain ⟨-, -, hc, hl, -⟩ := C35_values h os args s pwd hm
  have hv := ((C35_starts h os args).mp ⟨s, pwd, hm⟩).1
  have hmem : ∀ ch t, (argsOf ch os).getLast? = some t → ∃ o ∈ os, o.ch = ch ∧ o.arg = t := by
    intro ch t ht
    have := List.mem_of_getLast? ht
    unfold argsOf at this
    obtain ⟨o, ho, e⟩ := List.mem_map.mp this
    obtain ⟨ho1, ho2⟩ := List.mem_filter.mp ho
    exact ⟨o, ho1, by simpa using ho2, e⟩
  have hgiven : ∀ ch, given os [ch] ↔ argsOf ch os ≠ [] := by
    intro ch
    unfold given argsOf
    simp [List.filter_eq_nil_iff]
  have hc2 : s.country ≠ [] ↔ given os ['c'] := by
    rw [hgiven, show s.country = s.sys.country from rfl, hc]
    cases hq : (argsOf 'c' os).getLast? with
    | none => rw [List.getLast?_eq_none_iff] at hq; simp [hq]
    | some t =>
      obtain ⟨o, ho, h1, rfl⟩ := hmem _ _ hq
      have hne : argsOf 'c' os ≠ [] := by intro h; rw [h] at hq; cases hq
      have := hv o ho
      unfold ValidOpt at this
      rw [h1] at this
      simp at this
      refine ⟨fun _ => hne, fun _ => ?_⟩
      simp only [Option.map_some, Option.getD_some, capitals]
      intro h
      rw [List.map_eq_nil_iff] at h
      simp [h] at this
  have hl2 : s.location ≠ [] ↔ given os ['l'] := by
    rw [hgiven, show s.location = s.sys.location from rfl, hl]
    cases hq : (argsOf 'l' os).getLast? with
    | none => rw [List.getLast?_eq_none_iff] at hq; simp [hq]
    | some t =>
      obtain ⟨o, ho, h1, rfl⟩ := hmem _ _ hq
      have hne : argsOf 'l' os ≠ [] := by intro h; rw [h] at hq; cases hq
      have := hv o ho
      unfold ValidOpt at this
      rw [h1] at this
      simp at this
      refine ⟨fun _ => hne, fun _ => ?_⟩
      simp only [Option.map_some, Option.getD_some]
      intro h
      have := List.take_eq_nil_iff.mp h
      simp_all
  have bits : ∀ b, (Nat.testBit 37 b = true ↔ b = 0 ∨ b = 5 ∨ b = 2) ∧ (Nat.testBit 33 b = true ↔ b = 0 ∨ b = 5) := by
    intro b
    by_cases hb : b < 6
    · match b, hb with
      | 0, _ => decide
      | 1, _ => decide
      | 2, _ => decide
      | 3, _ => decide
      | 4, _ => decide
      | 5, _ => decide
    · have h37 : Nat.testBit 37 b = false := Nat.testBit_lt_two_pow (Nat.lt_of_lt_of_le (by decide : 37 < 2 ^ 6) (Nat.pow_le_pow_right (by omega) (by omega)))
      have h33 : Nat.testBit 33 b = false := Nat.testBit_lt_two_pow (Nat.lt_of_lt_of_le (by decide : 33 < 2 ^ 6) (Nat.pow_le_pow_right (by omega) (by omega)))
      rw [h37, h33]
      constructor <;> (constructor <;> intro h <;> first | omega | cases h)
  refine ⟨by rw [h3], ?_, by rw [h3]; exact hc, by rw [h3]; exact hl⟩
  intro b
  have e1 : d.sys.capLldpmed = if s.country ≠ [] ∧ s.location ≠ [] then 37 else 33 := by rw [h3]
  rw [e1, ← hc2, ← hl2]
  split
  · rename_i hcl
    rw [(bits b).1]
    simp [hcl]
  · rename_i hcl
    rw [(bits b).2]
    constructor
    · intro h; rcases h with h | h
      · exact .inl h
      · exact .inr (.inl h)
    · rintro (h | h | h)
      · exact .inl h
      · exact .inr h
      · exact absurd h.2 hcl

theorem words_length (l : List Bytes) (h : ∀ t ∈ l, t ≠ []) : l ≠ [] → 2 * l.length - 1 ≤ (words l).length := by
  induction l with
  | nil => intro h; exact absurd rfl h
  | cons a l ih =>
    intro _
    have ha := List.length_pos_iff.mpr (h a (List.mem_cons_self ..))
    cases l with
    | nil => simp [words, List.intercalate, List.intersperse]; omega
    | cons b l =>
      have := ih (fun t ht => h t (List.mem_cons_of_mem _ ht)) (by simp)
      have e : words (a :: b :: l) = a ++ lit " " ++ words (b :: l) := by simp [words, List.intercalate, List.intersperse]
      rw [e]
      simp only [List.length_append, List.length_cons] at this ⊢
      have : (lit " ").length = 1 := rfl
      omega

theorem words_mem {l : List Bytes} {b : UInt8} (h : b ∈ words l) : b = 0x20 ∨ ∃ t ∈ l, b ∈ t := by
  induction l with
  | nil => simp [words, List.intercalate, List.intersperse] at h
  | cons a l ih =>
    cases l with
    | nil => simp [words, List.intercalate, List.intersperse] at h; exact .inr ⟨a, by simp, h⟩
    | cons c l =>
      have e : words (a :: c :: l) = a ++ lit " " ++ words (c :: l) := by simp [words, List.intercalate, List.intersperse]
      rw [e] at h
      rcases List.mem_append.mp h with h | h
      · rcases List.mem_append.mp h with h | h
        · exact .inr ⟨a, by simp, h⟩
        · left; simpa [lit] using h
      · rcases ih h with h | ⟨t, ht, hb⟩
        · exact .inl h
        · exact .inr ⟨t, List.mem_cons_of_mem _ ht, hb⟩

theorem words_nul {l : List Bytes} (h : ∀ t ∈ l, ∀ b ∈ t, b ≠ 0) (n : Nat) : cText n ((words l).take n) := by
  refine ⟨List.length_take_le _ _, ?_⟩
  intro b hb
  rcases words_mem (List.mem_of_mem_take hb) with h1 | ⟨t, ht, h1⟩
  · rw [h1]; decide
  · exact h t ht b h1

/-- **C49**: the state a start produces is one from which the guarantees about the running daemon hold: nothing stored yet, every text fits its
field, active capabilities are available ones, and the texts are long enough for every packet. -/
theorem C49_started (h : Host) (e : SysEnv) (he : SysEnvOk e) (os : List Opt) (ho : OptsOk os) (args : List Bytes) (c : Conf) (pwd : Option (Nat × Nat))
    (d : Daemon) (hs : startUp h e os args = .ok (c, pwd, d)) :
    Started d ∧ CapsOk d.sys ∧ d.tx = [] ∧ 9 ≤ d.sys.hostname.length + d.sys.utsStr.length + d.sys.platform.length ∧
    (c.opts.testBit 5 = true ↔ c.names ≠ []) := by
  obtain ⟨-, -, hcn, hlo⟩ := C49_med h e he os args c pwd d hs
  obtain ⟨s, u, dist, r, a, hm, hc, hu, hd, h1, h2, h3, h4, h5, h6, -⟩ := start_facts he hs
  have hu5 := he.uts u (by rw [hu]; rfl)
  have hdist : ∀ t ∈ dist.toList, ∀ b ∈ t, b ≠ 0 := by
    intro t ht
    cases dist with
    | none => cases ht
    | some x =>
      simp at ht; subst ht
      have hz : ∀ b ∈ firstLine 511 e.lsbOut, b ≠ 0 := fun b hb => (firstLine_ne _ _ b hb).2
      rcases h1.2.2 with ⟨-, h⟩ | h | ⟨h, -⟩
      · rw [h]; simp
      · intro b hb; exact hz b (by rw [h]; simp [hb])
      · rw [h]; exact hz
  have husT : ∀ t ∈ [u.sysname, u.release, u.version, u.machine], t ≠ [] ∧ ∀ b ∈ t, b ≠ 0 := by
    intro t ht; exact hu5 t (by simp at ht ⊢; rcases ht with h | h | h | h <;> simp [h])
  have hhost : cText 255 d.sys.hostname := by
    rcases h2 with ⟨n, hn, -, e1⟩ | ⟨-, e1⟩
    · rw [e1]; exact ⟨List.length_take_le _ _, fun b hb => he.host _ _ hn b (List.mem_of_mem_take hb)⟩
    · rw [e1]; exact ⟨List.length_take_le _ _, fun b hb => (hu5 u.nodename (by simp)).2 b (List.mem_of_mem_take hb)⟩
  have hf : ∀ f, cText 32 (fileLine 32 (e.dmi f)) := fun f => by
    obtain ⟨-, -, -, h, -⟩ := dmiMem_ok e f
    exact h
  have huts : cText 255 d.sys.utsStr := by
    rw [h3]
    apply words_nul
    intro t ht
    rcases List.mem_append.mp ht with ht | ht
    · exact hdist t ht
    · exact (husT t ht).2
  have hplat : cText 255 d.sys.platform := by
    rw [h3]
    apply words_nul
    intro t ht
    rcases List.mem_append.mp ht with ht | ht
    · exact hdist t ht
    · refine (husT t ?_).2
      split at ht
      · simp only [List.mem_cons, List.not_mem_nil, or_false] at ht ⊢
        rcases ht with h | h
        · exact .inl h
        · exact .inr (.inr (.inr h))
      · simp only [List.mem_cons, List.not_mem_nil, or_false] at ht ⊢
        rcases ht with h | h | h
        · exact .inl h
        · exact .inr (.inl h)
        · exact .inr (.inr (.inr h))
  have hctry : cText 2 d.sys.country := by
    rw [hcn]
    cases hq : (argsOf 'c' os).getLast? with
    | none => exact ⟨by simp, by simp⟩
    | some t =>
      have := List.mem_of_getLast? hq
      unfold argsOf at this
      obtain ⟨o, ho', e1⟩ := List.mem_map.mp this
      obtain ⟨ho1, ho2⟩ := List.mem_filter.mp ho'
      have hv := ((C35_starts h os args).mp ⟨s, pwd, hm⟩).1 o ho1
      simp at ho2
      unfold ValidOpt at hv
      rw [ho2] at hv
      simp at hv
      subst e1
      refine ⟨by simp [capitals, hv.1], ?_⟩
      intro b hb
      simp only [Option.map_some, Option.getD_some, capitals] at hb
      obtain ⟨x, hx, rfl⟩ := List.mem_map.mp hb
      split
      · rename_i hlow
        intro hz
        have h61 := UInt8.le_iff_toNat_le.mp hlow.1
        have h0 := congrArg UInt8.toNat hz
        rw [UInt8.toNat_sub_of_le] at h0
        · simp at h0 h61; omega
        · rw [UInt8.le_iff_toNat_le]; simp at h61 ⊢; omega
      · exact ho o ho1 x hx
  have hloc : cText 255 d.sys.location := by
    rw [hlo]
    cases hq : (argsOf 'l' os).getLast? with
    | none => exact ⟨by simp, by simp⟩
    | some t =>
      have := List.mem_of_getLast? hq
      unfold argsOf at this
      obtain ⟨o, ho', e1⟩ := List.mem_map.mp this
      obtain ⟨ho1, -⟩ := List.mem_filter.mp ho'
      subst e1
      exact ⟨List.length_take_le _ _, fun b hb => ho o ho1 b (List.mem_of_mem_take hb)⟩
  have hutsl : 7 ≤ d.sys.utsStr.length := by
    rw [h3]
    rw [List.length_take]
    have := words_length [u.sysname, u.release, u.version, u.machine] (fun t ht => (husT t ht).1) (by simp)
    have e1 : (words [u.sysname, u.release, u.version, u.machine]).length ≤ (words (dist.toList ++ [u.sysname, u.release, u.version, u.machine])).length := by
      cases dist with
      | none => exact Nat.le_refl _
      | some x => simp [words, List.intercalate, List.intersperse]; omega
    simp at this
    omega
  have hplatl : 3 ≤ d.sys.platform.length := by
    rw [h3]
    rw [List.length_take]
    have hl : 3 ≤ (words (dist.toList ++ (if dist.isSome then [u.sysname, u.machine] else [u.sysname, u.release, u.machine]))).length := by
      have g1 := List.length_pos_iff.mpr (husT u.sysname (by simp)).1
      have g2 := List.length_pos_iff.mpr (husT u.machine (by simp)).1
      have g3 : (lit " ").length = 1 := rfl
      cases dist <;> simp [words, List.intercalate, List.intersperse, g3] <;> omega
    omega
  refine ⟨⟨?_, ?_, ?_, hhost, huts, hplat, hloc, hctry, h4, ?_, ?_, ?_, ?_, ?_⟩, ?_, ?_, by omega, ?_⟩
  · rw [hd]
  · rw [hd]
  · rw [hd]
  · rw [h3]; rfl
  · rw [h3]; dsimp only; split <;> omega
  · rw [h3]; dsimp only; split <;> omega
  · rw [h3]; dsimp only; split <;> omega
  · rw [h3]
    dsimp only
    exact ⟨hf _, hf _, ⟨List.length_take_le _ _, fun b hb => (husT u.release (by simp)).2 b (List.mem_of_mem_take hb)⟩, hf _, hf _, hf _, by simp [cText]⟩
  · intro b hb
    have e1 : d.sys.cap = if r then 12 else 4 := by rw [h3]
    have e2 : d.sys.capActive = if a then 12 else 4 := by rw [h3]
    rw [e1, e2]
    cases a with
    | true => rw [h6 rfl]; exact id
    | false =>
      simp only [List.mem_cons, List.not_mem_nil, or_false] at hb
      rcases hb with rfl | rfl | rfl | rfl <;> cases r <;> decide
  · rw [hd]
  · rw [hc]
    exact (C35_options h os args s pwd hm).2.2.2.2.2.1

/-- A Debian system with quotes around its description, that can forward packets and does so for IPv6. -/
def sysSample : SysEnv where
  lsbOut := lit "\"Debian GNU/Linux 12 (bookworm)\"\nmore\n"
  lsbOk := true
  uname := some { sysname := lit "Linux", nodename := lit "sw", release := lit "6.1.0-13-amd64", version := lit "#1 SMP", machine := lit "x86_64" }
  hostByName := fun n => if n = lit "sw" then some (lit "sw.example.org") else none
  dmi := fun f => if f = .serial then some (lit "0123456789abcdef0123456789abcdef-tail\n") else none
  forward4 := some (lit "0\n")
  forward6 := some (lit "1\n")

theorem sysSample_ok : SysEnvOk sysSample := by
  refine ⟨?_, ?_⟩
  · intro u hu
    simp only [sysSample, Option.mem_def, Option.some.injEq] at hu
    subst hu
    decide +kernel
  · intro n h hh
    simp only [sysSample] at hh
    split at hh
    · injection hh with hh; subst hh; decide +kernel
    · cases hh

/-- What the sample system starts with. -/
def sysStarted : Option SysInfo :=
  match startUp { user := fun _ => some (1, 1) } sysSample [⟨'L', []⟩, ⟨'c', lit "nl"⟩, ⟨'l', lit "rack 3"⟩] [] with
  | .ok (_, _, d) => some d.sys
  | _ => none

example : sysStarted = some {
    hostname := lit "sw.example.org", utsStr := lit "Debian GNU/Linux 12 (bookworm) Linux 6.1.0-13-amd64 #1 SMP x86_64"
    platform := lit "Debian GNU/Linux 12 (bookworm) Linux x86_64", utsRel := [6, 1, 0], country := lit "NL", location := lit "rack 3"
    cap := 12, capActive := 12, capLldpmed := 37, lldpmedDevtype := 1
    hinv := { swRevision := lit "6.1.0-13-amd64", serialNumber := lit "0123456789abcdef0123456789abcdef" } } := by decide +kernel

/-- The hypotheses of `C49_release_partial` for its release: four numbers, no minus that counts. -/
example : Numbers (lit "6.1.0-13") [lit "6", lit "1", lit "0", lit "13"] :=
  .run (ds := lit "6") (by decide) (by decide) (by decide) <| .skip (by decide) <|
  .run (ds := lit "1") (by decide) (by decide) (by decide) <| .skip (by decide) <|
  .run (ds := lit "0") (by decide) (by decide) (by decide) <| .skip (by decide) <|
  .run (ds := lit "13") (by decide) (by decide) (by decide) .nil

example : Numeral (lit "1\n") 1 :=
  ⟨[], [], lit "1", lit "\n", rfl, (fun _ h => nomatch h), .inl rfl, by decide, by decide, by decide, by decide⟩

/-- The missing case: the last number of the release `6.2-next-7` is announced as 249. -/
theorem C49_minus : ∃ e : SysEnv, SysEnvOk e ∧ (∃ u, e.uname = some u ∧ u.release = lit "6.2-next-7" ∧ Numbers u.release [lit "6", lit "2", lit "7"]) ∧
    (match startUp { user := fun _ => some (1, 1) } e [⟨'L', []⟩] [] with | .ok (_, _, d) => d.sys.utsRel | _ => []) = [6, 2, 249] := by
  refine ⟨{ sysSample with uname := some ⟨lit "Linux", lit "sw", lit "6.2-next-7", lit "#1", lit "x86_64"⟩ }, ⟨?_, sysSample_ok.host⟩,
    ⟨_, rfl, rfl, ?_⟩, by decide +kernel⟩
  · intro u hu
    obtain rfl := Option.some.inj hu
    decide +kernel
  · refine .run (ds := lit "6") (by decide) (by decide) (by decide) (.skip (by decide) ?_)
    refine .run (ds := lit "2") (by decide) (by decide) (by decide) ?_
    iterate 6 refine .skip (by decide) ?_
    exact .run (ds := lit "7") (by decide) (by decide) (by decide) .nil

/-! ## Later

What was found at the start stays; only the capabilities, the number of ports and the chassis address follow the interfaces. -/

theorem round_sys {c : Conf} {k : Kernel} {m : Media} {link : Option Nat} {d d' : Daemon} (h : sendRound c k m link d = .ok d') :
    d'.sys = d.sys ∨ d'.sys = (daemonFetch c k d).1.sys := by
  obtain ⟨d1, new, h1, hs, -⟩ := sendRound_sent h
  have : d'.sys = d1.sys := congrArg (fun x => x.2.1) hs.rest
  rcases h1 with rfl | rfl
  · exact .inl this
  · exact .inr this

theorem fetch_keeps (c : Conf) (k : Kernel) (d : Daemon) :
    ∃ a b n hw, (daemonFetch c k d).1.sys = { d.sys with cap := a, capActive := b, physifCount := n, hwaddr := hw } := by
  cases ha : k.ifaddrs with
  | none => rw [daemonFetch_none c k d ha]; exact ⟨_, _, _, _, rfl⟩
  | some addrs =>
    obtain ⟨h, -⟩ := fetch_sys_rest c.opts c.names c.mgmt k ⟨d.child.netifs, d.sys, d.mnetif, d.closed⟩ ha
    exact ⟨_, _, _, _, h⟩

/-- **C49**: whatever happens later, everything else stays as found at the start: the texts, inventory, version, location and device class. -/
theorem C49_kept (c : Conf) (es : List Event) (d0 d : Daemon) (hr : daemonRun c es d0 = .ok d) :
    ∃ a b n hw, d.sys = { d0.sys with cap := a, capActive := b, physifCount := n, hwaddr := hw } := by
  refine run_induction (P := fun _ d => ∃ a b n hw, d.sys = { d0.sys with cap := a, capActive := b, physifCount := n, hwaddr := hw })
    ⟨_, _, _, _, rfl⟩ ?_ es d hr
  rintro es e d d' - ⟨a, b, n, hw, ih⟩ hs
  have key : ∀ {k : Kernel} {m : Media} {link : Option Nat} {d1 : Daemon}, sendRound c k m link d = .ok d1 →
      ∃ a b n hw, d1.sys = { d0.sys with cap := a, capActive := b, physifCount := n, hwaddr := hw } := by
    intro k m link d1 h1
    rcases round_sys h1 with h | h
    · exact ⟨a, b, n, hw, h.trans ih⟩
    · obtain ⟨a', b', n', hw', hf⟩ := fetch_keeps c k d
      exact ⟨a', b', n', hw', by rw [h, hf, ih]⟩
  rcases step_bare hs with ⟨k, m, now, d1, rfl, h1, -, e⟩ | ⟨k, m, i, rfl, h1⟩ | ⟨-, -, -, e⟩
  · have := key h1
    rw [e]; exact this
  · exact key h1
  · rw [e]; exact ⟨a, b, n, hw, ih⟩

/-! ## C50 Capabilities -/

theorem ethers_mem {k : Kernel} {addrs : List IfAddr} {t : Int} (ht : t ≠ NETIF_INVALID) :
    ((∃ x ∈ ethers k addrs, x.1 = t) ↔ HasKind k addrs t) ∧ ((t, true) ∈ ethers k addrs ↔ HasKindUp k addrs t) := by
  have hk : ∀ p, netifType p = t ↔ kindOf p = some t := by
    intro p
    rw [netifType_eq]
    cases kindOf p with
    | none => simp; exact fun h => ht h.symm
    | some x => simp
  constructor
  · constructor
    · rintro ⟨x, hx, rfl⟩
      obtain ⟨ia, h1, h2⟩ := List.mem_filterMap.mp hx
      split at h2
      · rename_i i hw he
        injection h2 with h2
        subst h2
        exact ⟨ia, h1, i, hw, he, (hk _).mp rfl⟩
      · cases h2
    · rintro ⟨ia, h1, i, hw, he, h2⟩
      refine ⟨(t, k.up ia.name), List.mem_filterMap.mpr ⟨ia, h1, ?_⟩, rfl⟩
      rw [he]
      simp only
      rw [(hk _).mpr h2]
  · constructor
    · intro hx
      obtain ⟨ia, h1, h2⟩ := List.mem_filterMap.mp hx
      split at h2
      · rename_i i hw he
        injection h2 with h2
        injection h2 with h2 h3
        exact ⟨ia, h1, i, hw, he, (hk _).mp h2, h3⟩
      · cases h2
    · rintro ⟨ia, h1, i, hw, he, h2, h3⟩
      refine List.mem_filterMap.mpr ⟨ia, h1, ?_⟩
      rw [he]
      simp only
      rw [(hk _).mpr h2, h3]

theorem ports_fold (es : List (Int × Bool)) : ∀ s : SysInfo, s.physifCount < 65536 →
    (es.foldl (fun s e => typeCaps e.1 e.2 s) s).physifCount = (s.physifCount + (es.filter (fun e => e.1 = 0)).length) % 65536 := by
  induction es with
  | nil => intro s h; exact (Nat.mod_eq_of_lt h).symm
  | cons e es ih =>
    intro s h
    rw [List.foldl_cons]
    have hcount : (typeCaps e.1 e.2 s).physifCount = if e.1 = 0 then (s.physifCount + 1) % 65536 else s.physifCount := by
      unfold typeCaps NETIF_REGULAR
      split
      · rfl
      · split
        · rfl
        · split <;> rfl
    rw [ih _ (by rw [hcount]; split <;> omega), hcount, List.filter_cons]
    by_cases h0 : e.1 = 0
    · simp only [h0, decide_true, if_true, List.length_cons]; omega
    · simp [h0]

/-- The system information after a refresh of the interfaces. -/
theorem fetched_sys (c : Conf) (k : Kernel) (d : Daemon) {addrs : List IfAddr} (ha : k.ifaddrs = some addrs) :
    (∀ b, ((daemonFetch c k d).1.sys.cap.testBit b = true ↔
        (d.sys.cap.testBit b = true ∧ (b = 2 ∨ b = 3)) ∨ (b = 5 ∧ HasKind k addrs 1) ∨ (b = 1 ∧ HasKind k addrs 13)) ∧
      ((daemonFetch c k d).1.sys.capActive.testBit b = true ↔
        (d.sys.capActive.testBit b = true ∧ (b = 2 ∨ b = 3)) ∨ (b = 5 ∧ HasKindUp k addrs 1) ∨ (b = 1 ∧ HasKindUp k addrs 13))) ∧
    (daemonFetch c k d).1.sys.physifCount = (regulars k addrs).length % 65536 := by
  constructor
  · intro b
    have := fetch_caps c.opts c.names c.mgmt k ⟨d.child.netifs, d.sys, d.mnetif, d.closed⟩ ha b
    rw [(ethers_mem (by decide)).1, (ethers_mem (by decide)).1, (ethers_mem (by decide)).2, (ethers_mem (by decide)).2] at this
    exact this
  · obtain ⟨hw, -, h⟩ := fetch_sys c.opts c.names c.mgmt k ⟨d.child.netifs, d.sys, d.mnetif, d.closed⟩ ha
    show (netifFetch c.opts c.names c.mgmt k ⟨d.child.netifs, d.sys, d.mnetif, d.closed⟩).1.sys.physifCount = _
    rw [h]
    dsimp only
    rw [ports_fold _ _ (by decide : (0 : Nat) < 65536), Nat.zero_add]
    congr 1
    unfold ethers regulars
    generalize addrs = as
    induction as with
    | nil => rfl
    | cons ia as ih =>
      rw [List.filterMap_cons, List.filter_cons]
      have hk : ∀ p, netifType p = 0 ↔ kindOf p = some 0 := by
        intro p
        rw [netifType_eq]
        cases kindOf p with
        | none => simp [NETIF_INVALID]
        | some x => simp
      cases he : ia.addr with
      | link eth i hw =>
        cases eth with
        | true =>
          simp only
          rw [List.filter_cons]
          by_cases h0 : kindOf (k.probe i ia.name) = some 0
          · rw [if_pos (by simp [(hk _).mpr h0]), if_pos (by simp [h0]), List.length_cons, List.length_cons, ih]
          · rw [if_neg (by simp [mt (hk _).mp h0]), if_neg (by simp [h0]), ih]
        | false => simp only; rw [if_neg (by simp), ih]
      | absent => simp only; rw [if_neg (by simp), ih]
      | inet a => simp only; rw [if_neg (by simp), ih]
      | inet6 a => simp only; rw [if_neg (by simp), ih]
      | other => simp only; rw [if_neg (by simp), ih]

/-- Bits 2 and 3 never change. -/
theorem caps_kept (c : Conf) (es : List Event) (d0 d : Daemon) (hr : daemonRun c es d0 = .ok d) (b : Nat) (hb : b = 2 ∨ b = 3) :
    d.sys.cap.testBit b = d0.sys.cap.testBit b ∧ d.sys.capActive.testBit b = d0.sys.capActive.testBit b := by
  refine run_induction (P := fun _ d => d.sys.cap.testBit b = d0.sys.cap.testBit b ∧ d.sys.capActive.testBit b = d0.sys.capActive.testBit b)
    ⟨rfl, rfl⟩ ?_ es d hr
  rintro es e d d' - ih hs
  have key : ∀ {k : Kernel} {m : Media} {link : Option Nat} {d1 : Daemon}, sendRound c k m link d = .ok d1 →
      d1.sys.cap.testBit b = d0.sys.cap.testBit b ∧ d1.sys.capActive.testBit b = d0.sys.capActive.testBit b := by
    intro k m link d1 h1
    rcases round_sys h1 with h | h
    · rw [h]; exact ih
    · cases ha : k.ifaddrs with
      | none => rw [h, daemonFetch_none c k d ha]; exact ih
      | some addrs =>
        obtain ⟨hf, -⟩ := fetched_sys c k d ha
        rw [h, ← ih.1, ← ih.2]
        constructor <;> (rw [Bool.eq_iff_iff])
        · rw [(hf b).1]; constructor
          · rintro (h | h | h)
            · exact h.1
            · omega
            · omega
          · intro h; exact .inl ⟨h, hb⟩
        · rw [(hf b).2]; constructor
          · rintro (h | h | h)
            · exact h.1
            · omega
            · omega
          · intro h; exact .inl ⟨h, hb⟩
  rcases step_bare hs with ⟨k, m, now, d1, rfl, h1, -, e⟩ | ⟨k, m, i, rfl, h1⟩ | ⟨-, -, -, e⟩
  · have := key h1
    rw [e]; exact this
  · exact key h1
  · rw [e]; exact ih

/-- **C50**: after any history since the start, at each periodic round and at each link event that is not ignored, the capabilities announced are:
a station; a router as found at the start; a bridge or a wireless device exactly if the kernel lists such an Ethernet interface, an active one exactly
if one of them is up; and the number of ports announced with NDP is the number of regular Ethernet interfaces. -/
theorem C50_capabilities (h : Host) (e : SysEnv) (he : SysEnvOk e) (os : List Opt) (args : List Bytes) (c : Conf) (pwd : Option (Nat × Nat))
    (d0 : Daemon) (hs : startUp h e os args = .ok (c, pwd, d0))
    (hint : ∀ f ∈ [e.forward4, e.forward6], ∀ v, Numeral (fileLine 255 f) v → -2147483648 ≤ v ∧ v < 2147483648)
    (es : List Event) (d : Daemon) (hr : daemonRun c es d0 = .ok d) (k : Kernel) (m : Media) (addrs : List IfAddr) (ha : k.ifaddrs = some addrs)
    (ev : Event) (hev : (∃ now, ev = .timer k m now) ∨ ∃ i, ev = .link k m true true i ∧ flaps d i ≤ 3) (d' : Daemon)
    (hst : daemonStep c d ev = .ok d') :
    (∀ b, (d'.sys.cap.testBit b = true ↔ b = 2 ∨ (b = 3 ∧ ∃ f ∈ [e.forward4, e.forward6], fileLine 255 f ≠ []) ∨
        (b = 5 ∧ HasKind k addrs 1) ∨ (b = 1 ∧ HasKind k addrs 13)) ∧
      (d'.sys.capActive.testBit b = true ↔ b = 2 ∨ (b = 3 ∧ ∃ f ∈ [e.forward4, e.forward6], Numeral (fileLine 255 f) 1) ∨
        (b = 5 ∧ HasKindUp k addrs 1) ∨ (b = 1 ∧ HasKindUp k addrs 13))) ∧
    d'.sys.physifCount = (regulars k addrs).length % 65536 := by
  have hsys : d'.sys = (daemonFetch c k d).1.sys := by
    have key : ∀ {link : Option Nat} {d1 : Daemon}, sendRound c k m link d = .ok d1 → (∀ i, link = some i → flaps d i ≤ 3) →
        d1.sys = (daemonFetch c k d).1.sys := by
      intro link d1 h1 hl
      rcases sendRound_ok h1 with ⟨-, i, x, h2, h3, h4⟩ | ⟨h2, -⟩ | ⟨-, -, -, h2⟩
      · have := hl i h2
        rw [flaps_eq, h3] at this
        simp at this
        omega
      · rw [h2]
      · obtain ⟨new, hsent, -⟩ := sendNetifs_ok (mediaFun _) _ h2
        exact congrArg (fun x => x.2.1) hsent.rest
    rcases step_bare hst with ⟨k', m', now, d1, he1, h1, -, e1⟩ | ⟨k', m', i, he1, h1⟩ | ⟨hn1, hn2, -, -⟩
    · rcases hev with ⟨now', rfl⟩ | ⟨i, rfl, -⟩
      · injection he1 with a b
        subst a b
        have := key h1 (fun i h => nomatch h)
        rw [e1]; exact this
      · cases he1
    · rcases hev with ⟨now', rfl⟩ | ⟨j, rfl, hj⟩
      · cases he1
      · injection he1 with a b _ _ c1
        subst a b c1
        exact key h1 (fun i h => by injection h with h; subst h; exact hj)
    · rcases hev with ⟨now', rfl⟩ | ⟨i, rfl, -⟩
      · exact absurd rfl (hn1 _ _ _)
      · exact absurd rfl (hn2 _ _ _)
  obtain ⟨hf, hn⟩ := fetched_sys c k d ha
  have hc := C49_capabilities h e he os args c pwd d0 hs hint
  rw [hsys]
  refine ⟨fun b => ?_, hn⟩
  have hkeep : ∀ b, (b = 2 ∨ b = 3) → _ := fun b hb => caps_kept c es d0 d hr b hb
  rw [(hf b).1, (hf b).2]
  constructor
  · constructor
    · rintro (⟨h1, h2⟩ | h | h)
      · rw [(hkeep b h2).1, (hc b).1] at h1
        rcases h1 with h1 | h1
        · exact .inl h1
        · exact .inr (.inl h1)
      · exact .inr (.inr (.inl h))
      · exact .inr (.inr (.inr h))
    · rintro (h | h | h | h)
      · exact .inl ⟨by rw [(hkeep b (.inl h)).1, (hc b).1]; exact .inl h, .inl h⟩
      · exact .inl ⟨by rw [(hkeep b (.inr h.1)).1, (hc b).1]; exact .inr h, .inr h.1⟩
      · exact .inr (.inl h)
      · exact .inr (.inr h)
  · constructor
    · rintro (⟨h1, h2⟩ | h | h)
      · rw [(hkeep b h2).2, (hc b).2] at h1
        rcases h1 with h1 | h1
        · exact .inl h1
        · exact .inr (.inl h1)
      · exact .inr (.inr (.inl h))
      · exact .inr (.inr (.inr h))
    · rintro (h | h | h | h)
      · exact .inl ⟨by rw [(hkeep b (.inl h)).2, (hc b).2]; exact .inl h, .inl h⟩
      · exact .inl ⟨by rw [(hkeep b (.inr h.1)).2, (hc b).2]; exact .inr h, .inr h.1⟩
      · exact .inr (.inl h)
      · exact .inr (.inr h)

/-- A kernel with a wireless interface that is down and a bridge that is up. -/
def wlanKernel : Kernel where
  ifaddrs := some [⟨lit "wlan0", .link true 2 [0, 0, 0, 0, 0, 1, 0, 0]⟩, ⟨lit "br0", .link true 3 [0, 0, 0, 0, 0, 2, 0, 0]⟩, ⟨lit "eth0", .link true 4 [0, 0, 0, 0, 0, 3, 0, 0]⟩]
  up := fun n => n ≠ lit "wlan0"
  probe := fun i _ => if i = 2 then { wireless := true } else if i = 3 then { driver := lit "bridge" } else { device := true }

example : (match daemonRun { opts := 2, enabled := fun p => p == .lldp } [.timer wlanKernel {} 0] { sys := sysStarted.getD {} } with
    | .ok d => (d.sys.cap, d.sys.capActive, d.sys.physifCount) | _ => (0, 0, 0)) = (32 + 2 + 12, 2 + 12, 1) := by decide +kernel

/-- Only the value 1 counts as forwarding; with any other, such as 2, which switches it on as well, the router capability is not announced as active. -/
theorem C50_other_value : ∃ e : SysEnv, SysEnvOk e ∧ e.forward4 = some (lit "2\n") ∧
    (match startUp { user := fun _ => some (1, 1) } e [⟨'L', []⟩] [] with
      | .ok (_, _, d) => (d.sys.cap.testBit 3, d.sys.capActive.testBit 3) | _ => (false, true)) = (true, false) :=
  ⟨{ sysSample with forward4 := some (lit "2\n"), forward6 := none }, ⟨sysSample_ok.uts, sysSample_ok.host⟩, rfl, by decide +kernel⟩

end Ladvd.Props
