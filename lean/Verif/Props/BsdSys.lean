import Verif.Lemmas.BsdSys
import Verif.Props.Bsd
import Verif.Props.Sysinfo
/-!
# C62 (system wide part) and C68: the system on FreeBSD
-/

namespace Ladvd.Props

open Spec

/-! ## C62 Capabilities, management interface, vanished interfaces -/

/-- After a refresh the bridge and the wireless capability are announced exactly if the kernel lists such an interface, as active exactly if one of
them is up; station and router stay as they are, all others are off.  The number of ports is that of the regular interfaces. -/
theorem C62_capabilities (o : Opts) (names : List Bytes) (m : Mgmt) (k : BsdKernel) (s : Ifs) (addrs : List BIfAddr)
    (h : k.ifaddrs = some addrs) (hok : BsdOk k addrs) (hs : (s.netifs.map (·.index)).Nodup) :
    ∃ r, bsdFetch o names m k s = .ok r ∧
      (∀ b, (r.1.sys.cap.testBit b = true ↔
          (s.sys.cap.testBit b = true ∧ (b = 2 ∨ b = 3)) ∨ (b = 5 ∧ BsdHas k addrs 1 false) ∨ (b = 1 ∧ BsdHas k addrs 13 false)) ∧
        (r.1.sys.capActive.testBit b = true ↔
          (s.sys.capActive.testBit b = true ∧ (b = 2 ∨ b = 3)) ∨ (b = 5 ∧ BsdHas k addrs 1 true) ∨ (b = 1 ∧ BsdHas k addrs 13 true))) ∧
      r.1.sys.physifCount = (bsdRegulars k addrs).length % 65536 := by
  refine ⟨_, bsdFetch_asLinux o names m k s h hok hs, ?_⟩
  obtain ⟨h1, h2⟩ := fetched_sys { opts := o, names := names, mgmt := m } (asLinux k addrs)
    { child := { netifs := s.netifs }, sys := s.sys, mnetif := s.mnetif, closed := s.closed } (addrs := addrs.map asIfAddr) rfl
  constructor
  · intro b
    have := h1 b
    rw [(hasKind_asLinux k addrs addrs 1).1, (hasKind_asLinux k addrs addrs 13).1, (hasKind_asLinux k addrs addrs 1).2,
      (hasKind_asLinux k addrs addrs 13).2] at this
    exact this
  · rw [regulars_asLinux] at h2
    exact h2

example : (match bsdFetch 0 [] {} bsdSample { bsdBefore with sys := { bsdBefore.sys with cap := 12, capActive := 4 } } with
    | .ok r => (r.1.sys.cap, r.1.sys.capActive, r.1.sys.physifCount) | _ => (0, 0, 0)) = (14, 6, 4) := by decide +kernel

/-- Interfaces that are no longer there, or no longer usable, are closed. -/
theorem C62_closed (o : Opts) (names : List Bytes) (m : Mgmt) (k : BsdKernel) (s : Ifs) (addrs : List BIfAddr)
    (h : k.ifaddrs = some addrs) (hok : BsdOk k addrs) (hs : (s.netifs.map (·.index)).Nodup) :
    ∃ r, bsdFetch o names m k s = .ok r ∧
      r.1.closed = s.closed ++ (s.netifs.map (·.index)).filter (fun i => i ∉ (bsdUsables k addrs).map (·.index)) := by
  refine ⟨_, bsdFetch_asLinux o names m k s h hok hs, ?_⟩
  have := C40_closed o names m (asLinux k addrs) s _ rfl (listOk_asLinux hok) hs
  rw [usables_asLinux] at this
  exact this

example : (match bsdFetch 0 [] {} bsdSample bsdBefore with | .ok r => r.1.closed | _ => []) = [19] := by decide +kernel

/-- A management interface selected by name is found if it is usable. -/
theorem C62_management (o : Opts) (names : List Bytes) (m : Mgmt) (k : BsdKernel) (s : Ifs) (addrs : List BIfAddr)
    (h : k.ifaddrs = some addrs) (hok : BsdOk k addrs) (hs : (s.netifs.map (·.index)).Nodup)
    (e : Link) (he : e ∈ bsdUsables k addrs) (hm : m.mifname = some e.name) :
    ∃ r, bsdFetch o names m k s = .ok r ∧ r.1.mnetif = some e.index := by
  refine ⟨_, bsdFetch_asLinux o names m k s h hok hs, ?_⟩
  refine C34_by_name o names m (asLinux k addrs) s _ rfl (listOk_asLinux hok) hs e ?_ hm
  rw [usables_asLinux]; exact he

example : (match bsdFetch 0 [] { mifname := some (lit "em1") } bsdSample bsdBefore with | .ok r => r.1.mnetif | _ => none) = some 2 := by decide +kernel

/-! ## C68 What is announced about a FreeBSD system -/

/-- The daemon starts exactly if `uname` succeeds. -/
theorem C68_starts (e : BsdSysEnv) (he : BsdSysOk e) (s : SysInfo) (hs : s.utsRel = [0, 0, 0]) :
    (∃ s', bsdSysinfo e s = .ok s') ↔ e.uname.isSome = true := by
  cases hu : e.uname with
  | none =>
    constructor
    · rintro ⟨s', h⟩
      unfold bsdSysinfo at h
      rw [hu] at h
      cases h
    · intro h; cases h
  | some u =>
    obtain ⟨s', h, -⟩ := bsdSysinfo_ok e he hu s hs
    exact ⟨fun _ => rfl, fun _ => ⟨s', h⟩⟩

/-- The texts: host name, the description (kernel version and machine) and the platform (system, release and machine). -/
theorem C68_texts (e : BsdSysEnv) (he : BsdSysOk e) (s s' : SysInfo) (hs : s.utsRel = [0, 0, 0]) (h : bsdSysinfo e s = .ok s') :
    ∃ u, e.uname = some u ∧ BsdHostName e u s'.hostname ∧ s'.utsStr = (words [u.version, u.machine]).take 255 ∧
      s'.platform = (words [u.sysname, u.release, u.machine]).take 255 := by
  obtain ⟨u, hu⟩ := Option.isSome_iff_exists.mp ((C68_starts e he s hs).mp ⟨s', h⟩)
  obtain ⟨s1, h1, h2, -, h3, -⟩ := bsdSysinfo_ok e he hu s hs
  rw [h] at h1
  injection h1 with h1
  subst h1
  exact ⟨u, hu, h2, by rw [h3], by rw [h3]⟩

/-- The inventory: the release, and the variables of the kernel's environment, each cut to 32 bytes; a variable that is not set is left out. -/
theorem C68_inventory (e : BsdSysEnv) (he : BsdSysOk e) (s s' : SysInfo) (hs : s.utsRel = [0, 0, 0]) (h : bsdSysinfo e s = .ok s') :
    ∃ u, e.uname = some u ∧ s'.hinv = {
      hwRevision := kenvText (e.kenv .hw), fwRevision := kenvText (e.kenv .fw), swRevision := u.release.take 32
      serialNumber := kenvText (e.kenv .serial), manufacturer := kenvText (e.kenv .manufacturer), modelName := kenvText (e.kenv .model)
      assetId := [] } := by
  obtain ⟨u, hu⟩ := Option.isSome_iff_exists.mp ((C68_starts e he s hs).mp ⟨s', h⟩)
  obtain ⟨s1, h1, -, -, h3, -⟩ := bsdSysinfo_ok e he hu s hs
  rw [h] at h1
  injection h1 with h1
  subst h1
  exact ⟨u, hu, by rw [h3]⟩

/-- The version announced with EDP: the first three numbers of the release, each modulo 256, zero if missing.  What is missing:
numbers with a minus sign that does not follow a digit are taken as negative, see `C68_minus`. -/
theorem C68_release_partial (e : BsdSysEnv) (he : BsdSysOk e) (s s' : SysInfo) (hs : s.utsRel = [0, 0, 0]) (h : bsdSysinfo e s = .ok s')
    (u : Uname) (hu : e.uname = some u) :
    s'.utsRel.length = 3 ∧
    ∀ l, Numbers u.release l → NoMinus u.release → (∀ ds ∈ l, numValue ds < 2 ^ 63) →
      ∀ i, i < 3 → s'.utsRel[i]?.map UInt8.toNat = some (((l[i]?.map numValue).getD 0) % 256) := by
  obtain ⟨s1, h1, -, -, -, h4, h5⟩ := bsdSysinfo_ok e he hu s hs
  rw [h] at h1
  injection h1 with h1
  subst h1
  refine ⟨h4, ?_⟩
  intro l h1 h2 h3 i hi
  rw [h5 l h1 h2 h3, List.getElem?_take_of_lt hi]
  by_cases hl : i < l.length
  · rw [List.getElem?_append_left (by simpa using hl), List.getElem?_map, List.getElem?_eq_getElem hl]
    simp [octet]
  · rw [List.getElem?_append_right (by simpa using hl), List.getElem?_eq_none (by omega : l.length ≤ i)]
    match hj : i - (l.map octet).length with
    | 0 => rfl
    | 1 => rfl
    | 2 => rfl
    | n + 3 => omega

/-- The capabilities: always station, router if forwarding of IPv4 or IPv6 can be asked for, active if one of them
is set to 1. -/
theorem C68_capabilities (e : BsdSysEnv) (he : BsdSysOk e) (s s' : SysInfo) (hs : s.utsRel = [0, 0, 0]) (h : bsdSysinfo e s = .ok s') :
    ∀ b, (s'.cap.testBit b = true ↔ b = 2 ∨ (b = 3 ∧ (e.forward4 ≠ none ∨ e.forward6 ≠ none))) ∧
      (s'.capActive.testBit b = true ↔ b = 2 ∨ (b = 3 ∧ (e.forward4 = some 1 ∨ e.forward6 = some 1))) := by
  obtain ⟨u, hu⟩ := Option.isSome_iff_exists.mp ((C68_starts e he s hs).mp ⟨s', h⟩)
  obtain ⟨s1, h1, -, -, h3, -⟩ := bsdSysinfo_ok e he hu s hs
  rw [h] at h1
  injection h1 with h1
  subst h1
  have bits : ∀ b, (Nat.testBit 12 b = true ↔ b = 2 ∨ b = 3) ∧ (Nat.testBit 4 b = true ↔ b = 2) := by
    intro b
    by_cases hb : b < 4
    · match b, hb with
      | 0, _ => decide
      | 1, _ => decide
      | 2, _ => decide
      | 3, _ => decide
    · have hp : 2 ^ 4 ≤ 2 ^ b := Nat.pow_le_pow_right (by omega) (by omega)
      rw [Nat.testBit_lt_two_pow (x := 12) (by omega), Nat.testBit_lt_two_pow (x := 4) (by omega)]
      constructor <;> (constructor <;> intro h <;> first | (cases h; done) | omega)
  intro b
  rw [h3]
  have hn : ∀ o : Option Int, o.isSome = true ↔ o ≠ none := fun o => by cases o <;> simp
  constructor
  · dsimp only
    split
    · rename_i hc
      rw [hn, hn] at hc
      rw [(bits b).1]
      simp [hc]
    · rename_i hc
      rw [hn, hn] at hc
      rw [(bits b).2]
      simp [hc]
  · dsimp only
    split
    · rename_i hc
      rw [(bits b).1]
      simp [hc]
    · rename_i hc
      rw [(bits b).2]
      simp [hc]

/-- The LLDP-MED capabilities: the inventory always, the location exactly if country and location were both given; the device type is endpoint
class 1 unless one was given.  Country and location stay. -/
theorem C68_med (e : BsdSysEnv) (he : BsdSysOk e) (s s' : SysInfo) (hs : s.utsRel = [0, 0, 0]) (h : bsdSysinfo e s = .ok s') :
    s'.lldpmedDevtype = (if s.lldpmedDevtype = -1 then 1 else s.lldpmedDevtype) ∧
    s'.capLldpmed = 1 + 32 + (if s.country ≠ [] ∧ s.location ≠ [] then 4 else 0) ∧ s'.country = s.country ∧ s'.location = s.location := by
  obtain ⟨u, hu⟩ := Option.isSome_iff_exists.mp ((C68_starts e he s hs).mp ⟨s', h⟩)
  obtain ⟨s1, h1, -, -, h3, -⟩ := bsdSysinfo_ok e he hu s hs
  rw [h] at h1
  injection h1 with h1
  subst h1
  rw [h3]
  refine ⟨rfl, ?_, rfl, rfl⟩
  dsimp only
  split <;> rfl

def bsdUname : Uname :=
  ⟨lit "FreeBSD", lit "box", lit "9.2-RELEASE-p3", lit "FreeBSD 9.2-RELEASE-p3 #0: Sat Jan 11", lit "amd64"⟩

def bsdEnv : BsdSysEnv where
  uname := some bsdUname
  hostByName := fun n => if n = lit "box" then some (lit "box.example.org") else none
  kenv := fun f => match f with
    | .hw => none
    | .fw => some (lit "1.2.3")
    | .serial => some (lit "0123456789012345678901234567890123456789")
    | .manufacturer => some (lit "ACME")
    | .model => some (lit "Rocket")
  forward4 := some 0
  forward6 := some 1

theorem bsdEnv_ok : BsdSysOk bsdEnv where
  uts := by decide +kernel
  host := by
    intro n h hh
    simp only [bsdEnv] at hh
    split at hh
    · injection hh with hh; subst hh; decide +kernel
    · cases hh
  kenv := by
    intro f
    cases f <;> decide +kernel

example : (match bsdSysinfo bsdEnv { ({} : SysInfo) with country := lit "NL", lldpmedDevtype := -1 } with
    | .ok s => (s.hostname, s.utsStr, s.platform, s.utsRel) | _ => ([], [], [], [])) =
    (lit "box.example.org", lit "FreeBSD 9.2-RELEASE-p3 #0: Sat Jan 11 amd64", lit "FreeBSD 9.2-RELEASE-p3 amd64", [9, 2, 3]) := by decide +kernel

example : (match bsdSysinfo bsdEnv { ({} : SysInfo) with country := lit "NL", location := lit "x", lldpmedDevtype := -1 } with
    | .ok s => (s.hinv.fwRevision, s.hinv.serialNumber, s.hinv.swRevision, s.cap, s.capActive, s.capLldpmed) | _ => ([], [], [], 0, 0, 0)) =
    (lit "1.2.3", lit "01234567890123456789012345678901", lit "9.2-RELEASE-p3", 12, 12, 37) := by decide +kernel

example : Numbers bsdUname.release [lit "9", lit "2", lit "3"] := by
  refine .run (ds := lit "9") (by decide +kernel) (by decide +kernel) (by decide +kernel) (.skip (by decide +kernel) ?_)
  refine .run (ds := lit "2") (by decide +kernel) (by decide +kernel) (by decide +kernel) ?_
  iterate 10 refine .skip (by decide +kernel) ?_
  exact .run (ds := lit "3") (by decide +kernel) (by decide +kernel) (by decide +kernel) .nil

/-- Only the value 1 counts as forwarding; with any other, such as 2, which switches it on as well, the router capability is not announced as active. -/
theorem C68_other_value : ∃ e : BsdSysEnv, BsdSysOk e ∧ e.forward4 = some 2 ∧
    (match bsdSysinfo e {} with | .ok s => (s.cap.testBit 3, s.capActive.testBit 3) | _ => (false, true)) = (true, false) :=
  ⟨{ bsdEnv with forward4 := some 2, forward6 := none }, ⟨bsdEnv_ok.uts, bsdEnv_ok.host, bsdEnv_ok.kenv⟩, rfl, by decide +kernel⟩

/-- The missing case of the release: the last number of `12.0-STABLE-7` is announced as 249. -/
theorem C68_minus : ∃ e : BsdSysEnv, BsdSysOk e ∧
    (∃ u, e.uname = some u ∧ u.release = lit "12.0-STABLE-7" ∧ Numbers u.release [lit "12", lit "0", lit "7"]) ∧
    (match bsdSysinfo e {} with | .ok s => s.utsRel | _ => []) = [12, 0, 249] := by
  refine ⟨{ bsdEnv with uname := some ⟨lit "FreeBSD", lit "box", lit "12.0-STABLE-7", lit "#0", lit "amd64"⟩ }, ⟨?_, bsdEnv_ok.host, bsdEnv_ok.kenv⟩,
    ⟨_, rfl, rfl, ?_⟩, by decide +kernel⟩
  · intro u hu
    obtain rfl := Option.some.inj hu
    decide +kernel
  · refine .run (ds := lit "12") (by decide) (by decide) (by decide) (.skip (by decide) ?_)
    refine .run (ds := lit "0") (by decide) (by decide) (by decide) ?_
    iterate 8 refine .skip (by decide) ?_
    exact .run (ds := lit "7") (by decide) (by decide) (by decide) .nil

end Ladvd.Props
