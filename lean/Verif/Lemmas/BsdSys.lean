import Verif.Spec.BsdSys
import Verif.Lemmas.Bsd
import Verif.Lemmas.Sysinfo
/-!
# Lemmas about the system information on FreeBSD
-/

namespace Ladvd

open Spec

theorem hasKind_asLinux (k : BsdKernel) (A addrs : List BIfAddr) (t : Int) :
    (HasKind (asLinux k A) (addrs.map asIfAddr) t ↔ BsdHas k addrs t false) ∧ (HasKindUp (asLinux k A) (addrs.map asIfAddr) t ↔ BsdHas k addrs t true) := by
  have key : ∀ (ia : BIfAddr) (i : Nat) (hw : Bytes), (asIfAddr ia).addr = .link true i hw ↔
      ∃ st hw', ia.addr = .link st i hw' ∧ (st = 6 ∨ st = 209) ∧ hw = hw' ++ [0, 0] := by
    rintro ⟨name, a⟩ i hw
    cases a with
    | link st j hw' =>
      show (KAddr.link (decide (st = 209 ∨ st = 6)) j (hw' ++ [0, 0]) = _) ↔ _
      constructor
      · intro h
        injection h with h1 h2 h3
        exact ⟨st, hw', by rw [← h2], (of_decide_eq_true h1).symm, h3.symm⟩
      · rintro ⟨st', hw'', h1, h2, rfl⟩
        injection h1 with h1 h3 h4
        subst h1 h3 h4
        rw [decide_eq_true h2.symm]
    | absent => constructor <;> (intro h; first | (obtain ⟨_, _, h, _⟩ := h; cases h) | cases h)
    | inet a => constructor <;> (intro h; first | (obtain ⟨_, _, h, _⟩ := h; cases h) | cases h)
    | inet6 a => constructor <;> (intro h; first | (obtain ⟨_, _, h, _⟩ := h; cases h) | cases h)
    | other => constructor <;> (intro h; first | (obtain ⟨_, _, h, _⟩ := h; cases h) | cases h)
  have hk : ∀ i name, kindOf ((asLinux k A).probe i name) = bsdKind k i name := fun i name => kindOf_asProbe
  constructor
  · constructor
    · rintro ⟨x, hx, i, hw, h1, h2⟩
      obtain ⟨ia, hia, rfl⟩ := List.mem_map.mp hx
      obtain ⟨st, hw', h3, h4, -⟩ := (key ia i hw).mp h1
      rw [hk] at h2
      exact ⟨ia, hia, st, i, hw', h3, h4, h2, fun h => nomatch h⟩
    · rintro ⟨ia, hia, st, i, hw', h3, h4, h2, -⟩
      refine ⟨_, List.mem_map_of_mem hia, i, hw' ++ [0, 0], (key ia i _).mpr ⟨st, hw', h3, h4, rfl⟩, ?_⟩
      rw [hk]; exact h2
  · constructor
    · rintro ⟨x, hx, i, hw, h1, h2, h5⟩
      obtain ⟨ia, hia, rfl⟩ := List.mem_map.mp hx
      obtain ⟨st, hw', h3, h4, -⟩ := (key ia i hw).mp h1
      rw [hk] at h2
      exact ⟨ia, hia, st, i, hw', h3, h4, h2, fun _ => h5⟩
    · rintro ⟨ia, hia, st, i, hw', h3, h4, h2, h5⟩
      refine ⟨_, List.mem_map_of_mem hia, i, hw' ++ [0, 0], (key ia i _).mpr ⟨st, hw', h3, h4, rfl⟩, ?_, h5 rfl⟩
      rw [hk]; exact h2

theorem regulars_asLinux (k : BsdKernel) (A addrs : List BIfAddr) :
    (regulars (asLinux k A) (addrs.map asIfAddr)).length = (bsdRegulars k addrs).length := by
  unfold regulars bsdRegulars
  rw [List.filter_map, List.length_map]
  congr 2
  funext ia
  obtain ⟨name, a⟩ := ia
  cases a with
  | link st i hw =>
    have hk : kindOf ((asLinux k A).probe i name) = bsdKind k i name := kindOf_asProbe
    by_cases h : st = 209 ∨ st = 6
    · simp only [asIfAddr, Function.comp_apply, decide_eq_true h, hk, h.symm, true_and]
    · have h' : ¬ (st = 6 ∨ st = 209) := fun h' => h (Or.symm h')
      simp [asIfAddr, decide_eq_false h, h']
  | _ => rfl

theorem kenvMem_ok (v : Option Bytes) (hv : ∀ t ∈ v.toList, ∀ b ∈ t, b ≠ 0) : cstrAt (kenvMem v) 0 = .ok (kenvText v) := by
  have key : ∀ s : Bytes, (∀ b ∈ s, b ≠ 0) → ∃ rest, (s ++ [0]).take 32 ++ List.replicate (33 - ((s ++ [0]).take 32).length) 0 = s.take 32 ++ 0 :: rest := by
    intro s _
    by_cases hl : s.length < 32
    · refine ⟨List.replicate (33 - (s ++ [0]).length) 0, ?_⟩
      rw [List.take_of_length_le (by simp; omega), List.take_of_length_le (by omega)]
      simp
    · refine ⟨[], ?_⟩
      rw [List.take_append_of_le_length (by omega), List.length_take, Nat.min_eq_left (by omega)]
      rfl
  cases v with
  | none => rfl
  | some s =>
    have hs := hv s (by simp)
    obtain ⟨rest, hr⟩ := key s hs
    show cstrAt ((s ++ [0]).take 32 ++ List.replicate (33 - ((s ++ [0]).take 32).length) 0) 0 = _
    rw [hr]
    exact cstrAt_line (fun b hb => hs b (List.mem_of_mem_take hb))

/-- The inventory. -/
theorem bsdHinv_ok (e : BsdSysEnv) (u : Uname) (hu : u.release ≠ [] ∧ ∀ b ∈ u.release, b ≠ 0)
    (hk : ∀ f, ∀ t ∈ (e.kenv f).toList, ∀ b ∈ t, b ≠ 0) :
    bsdHinv e u = .ok ({ hwRevision := kenvText (e.kenv .hw), fwRevision := kenvText (e.kenv .fw), swRevision := u.release.take 32
                         serialNumber := kenvText (e.kenv .serial), manufacturer := kenvText (e.kenv .manufacturer)
                         modelName := kenvText (e.kenv .model), assetId := [] }, true) := by
  obtain ⟨sw, r, a1, a2, rest, a3⟩ := strlcpy_text (n := 32) u.release hu.2
  have hinv : (kenvMem (e.kenv .hw) ++ kenvMem (e.kenv .fw) ++ sw ++ kenvMem (e.kenv .serial) ++ kenvMem (e.kenv .manufacturer) ++
      kenvMem (e.kenv .model)).any (fun b => b != 0) = true := by
    obtain ⟨x, t, hx⟩ := List.exists_cons_of_ne_nil hu.1
    rw [List.any_eq_true]
    refine ⟨x, ?_, by simpa using hu.2 x (by rw [hx]; exact List.mem_cons_self ..)⟩
    have : x ∈ sw := by rw [a3, hx]; simp
    simp [this]
  unfold bsdHinv
  show (strlcpy (List.replicate 33 0) u.release 33).bind _ = _
  rw [a1]
  dsimp only [Res.bind_ok, Res.bind_eq, Res.pure_eq]
  rw [a2, kenvMem_ok _ (hk _), kenvMem_ok _ (hk _), kenvMem_ok _ (hk _), kenvMem_ok _ (hk _), kenvMem_ok _ (hk _), hinv]
  rfl

/-- What forwarding adds to the capabilities. -/
theorem bsdForwarding_ok (e : BsdSysEnv) (s : SysInfo) : bsdForwarding e s = { s with
    cap := if e.forward4.isSome = true ∨ e.forward6.isSome = true then s.cap ||| 8 else s.cap
    capActive := if e.forward4 = some 1 ∨ e.forward6 = some 1 then s.capActive ||| 8 else s.capActive } := by
  unfold bsdForwarding
  by_cases h4 : e.forward4 = some 1
  · simp [h4]
  · by_cases h6 : e.forward6 = some 1
    · cases hf : e.forward4 with
      | none => simp [h6]
      | some v =>
        rw [hf] at h4
        simp [h4, h6, Nat.or_assoc]
    · cases hf : e.forward4 with
      | none => cases hg : e.forward6 with
        | none => simp
        | some w => rw [hg] at h6; simp [h6]
      | some v =>
        rw [hf] at h4
        cases hg : e.forward6 with
        | none => simp [h4]
        | some w => rw [hg] at h6; simp [h4, h6, Nat.or_assoc]

/-- What the daemon knows about its system, of which `u` are the names, after a start with country and location of `s`. -/
theorem bsdSysinfo_ok (e : BsdSysEnv) (he : BsdSysOk e) {u : Uname} (hu : e.uname = some u) (s : SysInfo) (hs : s.utsRel = [0, 0, 0]) :
    ∃ s', bsdSysinfo e s = .ok s' ∧ BsdHostName e u s'.hostname ∧ cText 255 s'.hostname ∧
      s' = { s with
        utsStr := (words [u.version, u.machine]).take 255
        platform := (words [u.sysname, u.release, u.machine]).take 255
        utsRel := s'.utsRel, hostname := s'.hostname
        hinv := { hwRevision := kenvText (e.kenv .hw), fwRevision := kenvText (e.kenv .fw), swRevision := u.release.take 32
                  serialNumber := kenvText (e.kenv .serial), manufacturer := kenvText (e.kenv .manufacturer)
                  modelName := kenvText (e.kenv .model), assetId := [] }
        cap := if e.forward4.isSome = true ∨ e.forward6.isSome = true then 12 else 4
        capActive := if e.forward4 = some 1 ∨ e.forward6 = some 1 then 12 else 4
        lldpmedDevtype := if s.lldpmedDevtype = -1 then 1 else s.lldpmedDevtype
        capLldpmed := if s.country ≠ [] ∧ s.location ≠ [] then 37 else 33 } ∧
      s'.utsRel.length = 3 ∧
      (∀ l, Numbers u.release l → NoMinus u.release → (∀ ds ∈ l, numValue ds < 9223372036854775808) → s'.utsRel = (l.map octet ++ [0, 0, 0]).take 3) := by
  have hu5 := he.uts u (by rw [hu]; rfl)
  obtain ⟨rel, b1, b2⟩ := relLoop_ok (u.release.length + 1) u.release 0 s.utsRel (by omega) (by rw [hs]; rfl)
  obtain ⟨host, c1, c2, c3⟩ := hostText_ok e.common u he.host (hu5 _ (by simp)).2
  have d1 := bsdHinv_ok e u (hu5 _ (by simp)) he.kenv
  have hnum : ∀ l, Numbers u.release l → NoMinus u.release → (∀ ds ∈ l, numValue ds < 9223372036854775808) → rel = (l.map octet ++ [0, 0, 0]).take 3 := by
    intro l h1 h2 h3
    have := relLoop_numbers (u.release.length + 1) u.release l [] (by omega) (by simp) h1 h2 h3
    rw [show ([] : Bytes) ++ List.replicate (3 - ([] : Bytes).length) 0 = s.utsRel by rw [hs]; rfl] at this
    rw [show ([] : Bytes).length = 0 from rfl, b1] at this
    injection this
  have hut : bsdUtsText u = (words [u.version, u.machine]).take 255 := by
    simp [bsdUtsText, snprintf256, words, List.intercalate, List.intersperse]
  have hpl : platformText none u = (words [u.sysname, u.release, u.machine]).take 255 := by
    simp [platformText, snprintf256, words, List.intercalate, List.intersperse]
  unfold bsdSysinfo
  rw [hu]
  dsimp only [Res.bind_eq]
  rw [b1]
  dsimp only [Res.bind_ok]
  rw [c1]
  dsimp only [Res.bind_ok]
  rw [d1]
  dsimp only [Res.bind_ok, Res.pure_eq]
  rw [bsdForwarding_ok]
  refine ⟨_, rfl, c2, c3, ?_, b2, hnum⟩
  rw [← hut, ← hpl]
  congr 1 <;> (dsimp only; split <;> rfl)

end Ladvd
