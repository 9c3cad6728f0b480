import Verif.Spec.Bsd
import Verif.Lemmas.Sane
/-!
# FreeBSD detection as detection with translated answers

The answers of a FreeBSD kernel are translated into those of the Linux model (`asLinux`); the detection gives the same result.
-/

namespace Ladvd

open Spec

/-- The answers about the kind of an interface. -/
def asProbe : Option Int → Probe
  | some 1 => { wireless := true }
  | some 0 => { device := true }
  | some (-1) => { vlan := true }
  | some 12 => { driver := lit "bonding" }
  | some 13 => { driver := lit "bridge" }
  | some 2 => { driver := lit "tun" }
  | _ => {}

/-- The name in `ifr` after the loop. -/
def lastLink (addrs : List BIfAddr) : Option Bytes :=
  (addrs.filterMap (fun ia => match ia.addr with | .link _ _ _ => some (ia.name.take 15) | _ => none)).getLast?

/-- The description of a device. -/
def deviceText (k : BsdKernel) (i : Nat) : Option Bytes :=
  match unitDot (bsdDriver k i) with
  | none => none
  | some d => (k.sysctl (lit "dev." ++ cstr d ++ lit ".%desc"))

/-- Hardware addresses have eight bytes there. -/
def asIfAddr (ia : BIfAddr) : IfAddr :=
  ⟨ia.name, match ia.addr with
    | .absent => .absent
    | .link sdl index hw => .link (sdl = 209 ∨ sdl = 6) index (hw ++ [0, 0])
    | .inet a => .inet a
    | .inet6 a => .inet6 a
    | .other => .other⟩

/-- The answers of a FreeBSD kernel in the terms of the Linux model. -/
def asLinux (k : BsdKernel) (addrs : List BIfAddr) : Kernel where
  ifaddrs := some (addrs.map asIfAddr)
  up := k.up
  probe i name := asProbe (bsdKind k i name)
  alias i := (linkAt (bsdUsables k addrs) i).map (fun e => bsdDescrOf k e.name)
  deviceId i := deviceText k i
  bond name := (k.lagg name).map (fun g =>
    ⟨if g.proto = 4 then 4 else if g.proto = 2 then 1 else 0, (g.ports.take 32).map (fun p => some (p.1, decide (p.2 &&& 4 = 0)))⟩)
  bridge name := (k.members name).map (fun ms => ms.filterMap (fun s => (linkNamed (bsdUsables k addrs) s).map (·.index)))
  team _ := none
  vlan _ := (lastLink addrs).bind (fun n => (k.vlan n).map (fun r => (r.1, some r.2)))

/-! ## Kinds -/

theorem isDigit_iff (b : UInt8) : isDigit b = true ↔ unitDigit b := by
  unfold isDigit unitDigit
  rw [Bool.and_eq_true, decide_eq_true_eq, decide_eq_true_eq, UInt8.le_iff_toNat_le, UInt8.le_iff_toNat_le]
  rfl

theorem zapUnit_prefix (d : Bytes) : ∃ u, d = zapUnit d ++ u ∧ ∀ c ∈ u, unitDigit c := by
  refine ⟨(d.reverse.takeWhile isDigit).reverse, ?_, ?_⟩
  · unfold zapUnit
    rw [← List.reverse_append, List.takeWhile_append_dropWhile, List.reverse_reverse]
  · intro c hc
    have h : ∀ (l : Bytes), c ∈ l.takeWhile isDigit → isDigit c = true := by
      intro l
      induction l with
      | nil => intro h; cases h
      | cons a l ih =>
        rw [List.takeWhile_cons]
        split
        · rename_i ha
          intro h
          rcases List.mem_cons.mp h with rfl | h
          · exact ha
          · exact ih h
        · intro h; cases h
    exact (isDigit_iff c).mp (h _ (List.mem_reverse.mp hc))

theorem zapUnit_append (stem u : Bytes) (hu : ∀ c ∈ u, unitDigit c) (hs : ∀ c, stem.getLast? = some c → ¬ unitDigit c) :
    zapUnit (stem ++ u) = stem := by
  unfold zapUnit
  rw [List.reverse_append, List.dropWhile_append_of_pos (fun c hc => (isDigit_iff c).mpr (hu c (List.mem_reverse.mp hc)))]
  cases hr : stem.reverse with
  | nil => rw [List.dropWhile_nil, ← hr, List.reverse_reverse]
  | cons c r =>
    have : stem.getLast? = some c := by rw [← List.head?_reverse, hr]; rfl
    rw [List.dropWhile_cons_of_neg (fun h => hs c this ((isDigit_iff c).mp h)), ← hr, List.reverse_reverse]

theorem zapUnit_last (d : Bytes) : ∀ c, (zapUnit d).getLast? = some c → ¬ unitDigit c := by
  intro c hc hd
  unfold zapUnit at hc
  rw [List.getLast?_reverse] at hc
  have : ∀ l : Bytes, (l.dropWhile isDigit).head? = some c → isDigit c = false := by
    intro l
    induction l with
    | nil => intro h; cases h
    | cons a l ih =>
      rw [List.dropWhile_cons]
      split
      · exact ih
      · rename_i ha
        intro h
        injection h with h
        rw [← h]
        simpa using ha
  have h := this _ hc
  rw [(isDigit_iff c).mpr hd] at h
  cases h

theorem cstr_of_no_nul {s : Bytes} (h : (0 : UInt8) ∉ s) (t : Bytes) : cstr (s ++ 0 :: t) = s := by
  unfold cstr
  rw [List.takeWhile_append_of_pos (by intro c hc; simp only [ne_eq, decide_not, Bool.not_eq_eq_eq_not, Bool.not_true, decide_eq_false_iff_not]; rintro rfl; exact h hc)]
  rw [List.takeWhile_cons_of_neg (by simp), List.append_nil]

theorem bsdDriver_eq {k : BsdKernel} {i : Nat} (h : ∀ d ∈ (k.driver i).toList, d.length ≤ 15 ∧ (0 : UInt8) ∉ d) :
    ∃ t, bsdDriver k i = (k.driver i).getD [] ++ 0 :: t ∧ (∀ c ∈ t, c = 0) ∧ t.length + 1 + ((k.driver i).getD []).length = 17 := by
  have hd : ((k.driver i).getD []).length ≤ 15 := by
    cases hk : k.driver i with
    | none => exact Nat.zero_le _
    | some d => exact (h d (by rw [hk]; exact List.mem_singleton.mpr rfl)).1
  generalize hs : (k.driver i).getD [] = d at hd ⊢
  refine ⟨List.replicate (17 - (d.length + 1)) 0, ?_, ?_, ?_⟩
  · unfold bsdDriver sysctlOut
    rw [hs]
    dsimp only
    rw [List.take_of_length_le (by rw [List.length_append, List.length_singleton]; omega), List.length_append, List.length_singleton,
      List.append_assoc]
    rfl
  · intro c hc; exact List.eq_of_mem_replicate hc
  · rw [List.length_replicate]; omega

theorem bsdDriver_cstr {k : BsdKernel} {i : Nat} (h : ∀ d ∈ (k.driver i).toList, d.length ≤ 15 ∧ (0 : UInt8) ∉ d) :
    cstr (bsdDriver k i) = (k.driver i).getD [] := by
  obtain ⟨t, e, -⟩ := bsdDriver_eq h
  rw [e]
  refine cstr_of_no_nul ?_ t
  cases hk : k.driver i with
  | none => exact List.not_mem_nil
  | some d => exact (h d (by rw [hk]; exact List.mem_singleton.mpr rfl)).2

theorem driverIs_iff {k : BsdKernel} {i : Nat} (h : ∀ d ∈ (k.driver i).toList, d.length ≤ 15 ∧ (0 : UInt8) ∉ d) {stem : Bytes}
    (hs : ∀ c, stem.getLast? = some c → ¬ unitDigit c) (hne : stem ≠ []) :
    zapUnit (cstr (bsdDriver k i)) = stem ↔ DriverIs k i stem := by
  rw [bsdDriver_cstr h]
  unfold DriverIs
  cases hk : k.driver i with
  | none =>
    constructor
    · intro e
      exact absurd e.symm hne
    · rintro ⟨d, hd, -⟩; exact absurd hd List.not_mem_nil
  | some d =>
    constructor
    · intro e
      obtain ⟨u, e1, e2⟩ := zapUnit_prefix d
      refine ⟨d, List.mem_singleton.mpr rfl, ?_, ?_⟩
      · rw [e1]; exact ⟨u, by rw [show zapUnit d = stem from e]⟩
      · rw [e1, show zapUnit d = stem from e, List.drop_left]; exact e2
    · rintro ⟨d', hd, ⟨u, rfl⟩, hu⟩
      obtain rfl := List.mem_singleton.mp hd
      rw [List.drop_left] at hu
      exact zapUnit_append stem u hu hs

theorem bsdType_eq {k : BsdKernel} {i : Nat} {name : Bytes} (h : ∀ d ∈ (k.driver i).toList, d.length ≤ 15 ∧ (0 : UInt8) ∉ d) :
    bsdType k i name = (bsdKind k i name).getD NETIF_INVALID := by
  have t1 := driverIs_iff (stem := lit "tun") h (by decide) (by decide)
  have t2 := driverIs_iff (stem := lit "tap") h (by decide) (by decide)
  have t3 := driverIs_iff (stem := lit "vxlan") h (by decide) (by decide)
  have t4 := driverIs_iff (stem := lit "ipfw") h (by decide) (by decide)
  have hv : (k.vlan name).isSome = true ↔ k.vlan name ≠ none := by rw [Option.isSome_iff_ne_none]
  have hl : (k.lagg name).isSome = true ↔ k.lagg name ≠ none := by rw [Option.isSome_iff_ne_none]
  unfold bsdType bsdKind bsdRows
  simp only [t1, t2, t3, t4, hv, hl]
  by_cases hw : k.wireless name = true
  · simp [hw, List.find?, NETIF_WIRELESS]
  · rw [if_neg hw]
    have hw' : k.wireless name = false := by simpa using hw
    by_cases h6 : k.ifType name = 6
    · rw [if_pos h6]
      simp only [h6, hw', List.find?, true_and, decide_true]
      by_cases a0 : k.vlan name ≠ none
      · simp [a0, NETIF_VLAN]
      · simp only [a0, decide_false, if_false]
        by_cases a1 : DriverIs k i (lit "tun")
        · simp [a1, NETIF_TAP]
        · by_cases a2 : DriverIs k i (lit "tap")
          · simp [a1, a2, NETIF_TAP]
          · by_cases a3 : DriverIs k i (lit "vxlan")
            · simp [a1, a2, a3, NETIF_TAP]
            · by_cases a4 : DriverIs k i (lit "ipfw")
              · simp [a1, a2, a3, a4]
              · by_cases a5 : k.lagg name ≠ none
                · simp [a1, a2, a3, a4, a5, NETIF_BONDING]
                · simp [a1, a2, a3, a4, a5, NETIF_REGULAR]
    · rw [if_neg h6]
      simp only [h6, hw', List.find?, false_and, decide_false]
      by_cases b1 : k.ifType name = 209
      · simp [b1, NETIF_BRIDGE]
      · by_cases b2 : k.ifType name = 161
        · simp [b2, NETIF_REGULAR]
        · by_cases b3 : k.ifType name = 135
          · simp [b3, NETIF_VLAN]
          · simp [b1, b2, b3]

theorem bsdKind_cases {k : BsdKernel} {i : Nat} {name : Bytes} {t : Int} (h : bsdKind k i name = some t) :
    t = 1 ∨ t = 0 ∨ t = -1 ∨ t = 12 ∨ t = 13 ∨ t = 2 := by
  unfold bsdKind bsdRows at h
  obtain ⟨r, hr, hrt⟩ := Option.bind_eq_some_iff.mp h
  have hm := List.mem_of_find?_eq_some hr
  simp only [List.mem_cons, List.not_mem_nil, or_false] at hm
  rcases hm with rfl | rfl | rfl | rfl | rfl | rfl | rfl | rfl | rfl | rfl | rfl <;> simp_all

theorem kindOf_asProbe {k : BsdKernel} {i : Nat} {name : Bytes} : kindOf (asProbe (bsdKind k i name)) = bsdKind k i name := by
  cases h : bsdKind k i name with
  | none => rfl
  | some t => rcases bsdKind_cases h with rfl | rfl | rfl | rfl | rfl | rfl <;> decide

theorem usable_asLinux (k : BsdKernel) (addrs : List BIfAddr) (ia : BIfAddr) :
    usable (asLinux k addrs) (asIfAddr ia) = bsdUsable k ia := by
  obtain ⟨name, a⟩ := ia
  cases a with
  | link t i hw =>
    unfold bsdUsable asIfAddr
    dsimp only
    by_cases ht : t = 209 ∨ t = 6
    · have : decide (t = 209 ∨ t = 6) = true := decide_eq_true ht
      rw [this]
      unfold usable
      dsimp only
      show (if k.up name = true then (kindOf (asProbe (bsdKind k i name))).map _ else none) = _
      rw [kindOf_asProbe]
      by_cases hu : k.up name = true
      · rw [if_pos hu, if_pos ⟨ht.symm, hu⟩]
      · rw [if_neg hu, if_neg (fun h => hu h.2)]
    · have : decide (t = 209 ∨ t = 6) = false := decide_eq_false ht
      rw [this, if_neg (fun h => ht h.1.symm)]
      rfl
  | _ => rfl

theorem usables_asLinux (k : BsdKernel) (A addrs : List BIfAddr) :
    usables (asLinux k A) (addrs.map asIfAddr) = bsdUsables k addrs := by
  unfold usables bsdUsables
  rw [List.filterMap_map]
  congr 1
  funext ia
  exact usable_asLinux k A ia

theorem linkAt_of_mem {us : List Link} (h : (us.map (·.index)).Nodup) {e : Link} (he : e ∈ us) : linkAt us e.index = some e := by
  unfold linkAt
  cases hh : (us.filter (fun x => x.index = e.index)).head? with
  | none => have := head_filter_none hh e he; simp at this
  | some x =>
    obtain ⟨hx, hi⟩ := head_filter_some hh
    rw [nodup_map_inj h hx he (of_decide_eq_true hi)]

theorem cstr_self {s : Bytes} (h : (0 : UInt8) ∉ s) : cstr s = s := by
  have := cstr_of_no_nul h []
  have e : cstr (s ++ [0]) = cstr s := by
    unfold cstr
    rw [List.takeWhile_append]
    split
    · rename_i hl
      rw [List.takeWhile_cons_of_neg (by simp), List.append_nil]
      exact (List.takeWhile_prefix _).eq_of_length hl |>.symm
    · rfl
  rw [← e]; exact this

theorem descr_asLinux {k : BsdKernel} {addrs : List BIfAddr} (hok : BsdOk k addrs) {e : Link} (he : e ∈ bsdUsables k addrs) :
    bsdDescr k e.name = bsdDescrOf k e.name ∧
    ((((asLinux k addrs).alias e.index).map (fun d => (cstr d).take 63)).getD []) = bsdDescrOf k e.name := by
  have h0 : (0 : UInt8) ∉ bsdDescrOf k e.name ∧ (bsdDescrOf k e.name).length ≤ 63 ∧ bsdDescr k e.name = bsdDescrOf k e.name := by
    unfold bsdDescrOf bsdDescr
    cases hd : k.descr e.name with
    | none => exact ⟨List.not_mem_nil, Nat.zero_le _, rfl⟩
    | some d =>
      have := hok.descr e he d (by rw [hd]; exact List.mem_singleton.mpr rfl)
      dsimp only
      by_cases hl : d.length ≤ 63
      · rw [if_pos hl, if_pos (by omega)]; exact ⟨this, hl, cstr_self this⟩
      · rw [if_neg hl, if_neg (by omega)]; exact ⟨List.not_mem_nil, Nat.zero_le _, rfl⟩
  refine ⟨h0.2.2, ?_⟩
  show (((linkAt (bsdUsables k addrs) e.index).map (fun e => bsdDescrOf k e.name)).map (fun d => (cstr d).take 63)).getD [] = _
  rw [linkAt_of_mem hok.index he]
  show (cstr (bsdDescrOf k e.name)).take 63 = _
  rw [cstr_self h0.1, List.take_of_length_le h0.2.1]

/-! ## The detection loop -/

/-- `ifr` after an entry. -/
def nextIfr (ifr : Option Bytes) (ia : BIfAddr) : Option Bytes :=
  match ia.addr with | .link _ _ _ => some (ia.name.take 15) | _ => ifr

theorem bsdStep_asLinux {k : BsdKernel} {addrs : List BIfAddr} (hok : BsdOk k addrs) (m : Mgmt) (a : FetchAcc) (ifr : Option Bytes)
    {ia : BIfAddr} (hia : ia ∈ addrs) :
    bsdStep k m ⟨a, ifr⟩ ia = ⟨fetchStep (asLinux k addrs) m a (asIfAddr ia), nextIfr ifr ia⟩ := by
  have hus : ∀ e, bsdUsable k ia = some e → e ∈ bsdUsables k addrs := fun e he => List.mem_filterMap.mpr ⟨ia, hia, he⟩
  have hdr : ∀ t i hw, ia.addr = .link t i hw → ∀ d ∈ (k.driver i).toList, d.length ≤ 15 ∧ (0 : UInt8) ∉ d := by
    intro t i hw e
    refine hok.driver i (List.mem_filterMap.mpr ⟨ia, hia, ?_⟩)
    rw [e]
  obtain ⟨name, ad⟩ := ia
  cases ad with
  | link t i hw =>
    have hd := hdr t i hw rfl
    unfold bsdStep fetchStep asIfAddr nextIfr
    dsimp only
    by_cases ht : t = 209 ∨ t = 6
    · have : decide (t = 209 ∨ t = 6) = true := decide_eq_true ht
      rw [this, if_neg (by omega)]
      dsimp only
      have hty : netifType ((asLinux k addrs).probe i name) = bsdType k i name := by
        rw [netifType_eq, bsdType_eq hd]
        show (kindOf (asProbe (bsdKind k i name))).getD _ = _
        rw [kindOf_asProbe]
      rw [hty]
      show _ = BsdAcc.mk (if bsdType k i name = NETIF_INVALID then { a with sys := typeCaps (bsdType k i name) (k.up name) a.sys }
        else if (!k.up name) = true then _ else _) _
      by_cases hinv : bsdType k i name = NETIF_INVALID
      · rw [if_pos hinv, if_pos hinv]
      · rw [if_neg hinv, if_neg hinv]
        by_cases hup : (!k.up name) = true
        · rw [if_pos hup, if_pos hup]; rfl
        · rw [if_neg hup, if_neg hup]
          have hu : k.up name = true := by simpa using hup
          obtain ⟨ty, hk⟩ : ∃ ty, bsdKind k i name = some ty := by
            cases hk : bsdKind k i name with
            | none => rw [bsdType_eq hd, hk] at hinv; exact absurd rfl hinv
            | some ty => exact ⟨ty, rfl⟩
          have he := hus ⟨i, name, ty⟩ (by
            unfold bsdUsable; dsimp only; rw [if_pos ⟨ht.symm, hu⟩, hk]; rfl)
          obtain ⟨e1, e2⟩ := descr_asLinux hok he
          have hnew : ∀ old, bsdNetif k i name (bsdType k i name) old = freshNetif (asLinux k addrs) i name (bsdType k i name) old := by
            intro old
            unfold bsdNetif freshNetif
            rw [e1, ← e2]
          rw [hnew]
          rfl
    · have : decide (t = 209 ∨ t = 6) = false := decide_eq_false ht
      rw [this, if_pos (by omega)]
  | _ => rfl

theorem lastLink_fold (addrs : List BIfAddr) (ifr : Option Bytes) :
    addrs.foldl nextIfr ifr = (lastLink addrs).or ifr := by
  induction addrs generalizing ifr with
  | nil => rfl
  | cons ia addrs ih =>
    rw [List.foldl_cons, ih]
    unfold lastLink nextIfr
    cases ha : ia.addr with
    | link t i hw =>
      rw [List.filterMap_cons_some (b := ia.name.take 15) (by rw [ha])]
      cases hl : (addrs.filterMap (fun ia => match ia.addr with | .link _ _ _ => some (ia.name.take 15) | _ => none)).getLast? with
      | none =>
        rw [List.getLast?_eq_none_iff] at hl
        rw [hl]
        rfl
      | some x =>
        rw [List.getLast?_cons, hl]; rfl
    | _ => rw [List.filterMap_cons_none (by rw [ha])]

theorem bsd_fold {k : BsdKernel} {A : List BIfAddr} (hok : BsdOk k A) (m : Mgmt) (addrs : List BIfAddr) (hsub : ∀ ia ∈ addrs, ia ∈ A)
    (a : FetchAcc) (ifr : Option Bytes) :
    addrs.foldl (bsdStep k m) ⟨a, ifr⟩ =
      ⟨(addrs.map asIfAddr).foldl (fetchStep (asLinux k A) m) a, addrs.foldl nextIfr ifr⟩ := by
  induction addrs generalizing a ifr with
  | nil => rfl
  | cons ia addrs ih =>
    rw [List.foldl_cons, bsdStep_asLinux hok m a ifr (hsub ia List.mem_cons_self), ih (fun x hx => hsub x (List.mem_cons_of_mem _ hx))]
    rfl

/-! ## The settings loop -/

theorem Mirror.core {us : List Link} {l l' : List Netif} (h : Mirror us l) (hc : l'.map core = l.map core) : Mirror us l' := by
  have key : ∀ {a b : List Netif}, b.map Ladvd.core = a.map Ladvd.core → ∀ n ∈ b, ∃ x ∈ a, Ladvd.core n = Ladvd.core x := by
    intro a b e n hn
    have : Ladvd.core n ∈ a.map Ladvd.core := by rw [← e]; exact List.mem_map_of_mem hn
    obtain ⟨x, hx, ex⟩ := List.mem_map.mp this
    exact ⟨x, hx, ex.symm⟩
  refine ⟨h.index, h.name, ?_, ?_⟩
  · intro n hn
    obtain ⟨x, hx, e⟩ := key hc n hn
    obtain ⟨u, hu, d⟩ := h.fwd x hx
    exact ⟨u, hu, (core_index e).trans d.1, (core_name e).trans d.2.1, (core_type e).trans d.2.2⟩
  · intro u hu
    obtain ⟨x, hx, d⟩ := h.bwd u hu
    obtain ⟨n, hn, e⟩ := key hc.symm x hx
    exact ⟨n, hn, (core_index e).symm.trans d.1, (core_name e).symm.trans d.2.1, (core_type e).symm.trans d.2.2⟩

theorem byName_byIndex {us : List Link} {l : List Netif} (h : Mirror us l) (hnd : (l.map (·.index)).Nodup) (s : Bytes) :
    netifByName l s = (linkNamed us s).bind (fun e => netifByIndex l e.index) := by
  rw [← withName_eq]
  rcases h.named s with ⟨a, b⟩ | ⟨n, e, a, b, d⟩
  · rw [a, b]; rfl
  · rw [a, b]
    show some n = netifByIndex l e.index
    have hn : n ∈ l := (head_filter_some a).1
    rw [← d.1, byIndex_of_mem hnd hn]

theorem members_link {us : List Link} (parent : Nat) (ms : List Bytes) {l : List Netif} (h : Mirror us l)
    (hnd : (l.map (·.index)).Nodup) (cur : Nat) :
    linkPorts parent (ms.map (fun s => ((fun (l : List Netif) => netifByName l s), fun (n : Netif) => { n with child := 1 }))) l cur =
    linkPorts parent ((ms.filterMap (fun s => (linkNamed us s).map (·.index))).map
      (fun i => ((fun (l : List Netif) => netifByIndex l i), fun (n : Netif) => { n with child := 1 }))) l cur := by
  induction ms generalizing l cur with
  | nil => rfl
  | cons s ms ih =>
    have hb := byName_byIndex h hnd s
    rw [List.map_cons]
    cases hl : linkNamed us s with
    | none =>
      rw [hl] at hb
      rw [List.filterMap_cons_none (by rw [hl]; rfl)]
      conv => lhs; unfold linkPorts
      dsimp only
      rw [show netifByName l s = none from hb]
      exact ih h hnd cur
    | some e =>
      rw [hl] at hb
      replace hb : netifByName l s = netifByIndex l e.index := hb
      rw [List.filterMap_cons_some (b := e.index) (by rw [hl]; rfl), List.map_cons]
      conv => lhs; unfold linkPorts
      conv => rhs; unfold linkPorts
      dsimp only
      rw [hb]
      cases netifByIndex l e.index with
      | none => exact ih h hnd cur
      | some x =>
        dsimp only
        have hc : (linkPort parent (fun n => { n with child := 1 }) l cur x.index).map Ladvd.core = l.map Ladvd.core :=
          linkPort_core (f := fun n => { n with child := 1 }) (fun n => ⟨rfl, rfl, (by show (1 : Nat) ≠ 0; decide)⟩) l cur x.index
        by_cases ht : x.type < NETIF_PARENT
        · rw [if_pos ht, if_pos ht]
          exact ih (h.core hc) (by rw [map_index_of_core hc]; exact hnd) _
        · rw [if_neg ht, if_neg ht]
          exact ih h hnd cur

/-- All members are read. -/
theorem bridgeRead_all (k : BsdKernel) (hm : ∀ n, k.realloc n = true) (hr : 0 < k.reqSize) (n j : Nat) (hj : j ≤ 17)
    (hn : k.reqSize * (n + 1) < 8192 * 2 ^ j) :
    ∀ d i, i + d = j → bridgeRead k n (d + 1 + (31 - j)) (8192 * 2 ^ i) = .ok (some n) := by
  have hexit : ∀ len, k.reqSize * min n (len / k.reqSize) + k.reqSize < len → min n (len / k.reqSize) = n := by
    intro len h
    rcases Nat.le_total n (len / k.reqSize) with hle | hle
    · exact Nat.min_eq_left hle
    · rw [Nat.min_eq_right hle] at h
      have := Nat.lt_mul_div_succ len hr
      rw [Nat.mul_add, Nat.mul_one] at this
      omega
  have hok : ∀ len fuel, len < 2147483648 → k.reqSize * min n (len / k.reqSize) + k.reqSize < len →
      bridgeRead k n (fuel + 1) len = .ok (some n) := by
    intro len fuel h1 h2
    rw [bridgeRead, if_neg (by omega), if_neg (by rw [hm]; decide)]
    dsimp only
    rw [if_pos h2, hexit len h2, Nat.mul_div_cancel_left n hr]
  intro d
  induction d with
  | zero =>
    intro i hi
    have hi' : i = j := by omega
    subst hi'
    have hlt : 8192 * 2 ^ i < 2147483648 := by
      have : 2 ^ i ≤ 2 ^ 17 := Nat.pow_le_pow_right (by omega) hj
      have e : (2 : Nat) ^ 17 = 131072 := by decide
      omega
    rw [show 0 + 1 + (31 - i) = (31 - i) + 1 by omega]
    refine hok _ _ hlt ?_
    have : k.reqSize * min n (8192 * 2 ^ i / k.reqSize) ≤ k.reqSize * n := Nat.mul_le_mul_left _ (Nat.min_le_left _ _)
    rw [Nat.mul_add, Nat.mul_one] at hn
    omega
  | succ d ih =>
    intro i hi
    have hlt : 8192 * 2 ^ i < 2147483648 := by
      have : 2 ^ i ≤ 2 ^ 17 := Nat.pow_le_pow_right (by omega) (by omega)
      have e : (2 : Nat) ^ 17 = 131072 := by decide
      omega
    rw [show d + 1 + 1 + (31 - j) = (d + 1 + (31 - j)) + 1 by omega]
    by_cases hx : k.reqSize * min n (8192 * 2 ^ i / k.reqSize) + k.reqSize < 8192 * 2 ^ i
    · exact hok _ _ hlt hx
    · rw [bridgeRead, if_neg (by omega), if_neg (by rw [hm]; decide)]
      dsimp only
      rw [if_neg hx, Nat.mul_assoc, ← Nat.pow_succ]
      exact ih (i + 1) (by omega)

theorem bridgeRead_start (k : BsdKernel) (hm : ∀ n, k.realloc n = true) (hr : 0 < k.reqSize) (n : Nat)
    (hn : k.reqSize * (n + 1) < 1073741824) : bridgeRead k n 32 8192 = .ok (some n) := by
  have := bridgeRead_all k hm hr n 17 (Nat.le_refl _) (by
    have e : (8192 : Nat) * 2 ^ 17 = 1073741824 := by decide
    omega) 17 0 (by omega)
  exact this

theorem bsdDetect_asLinux {k : BsdKernel} {addrs : List BIfAddr} (hok : BsdOk k addrs) {l : List Netif}
    (h : Mirror (bsdUsables k addrs) l) (hnd : (l.map (·.index)).Nodup) (i : Nat) :
    bsdDetect k (lastLink addrs) l i = .ok (detectOne (asLinux k addrs) l i) := by
  unfold bsdDetect detectOne
  cases hn : netifByIndex l i with
  | none => rfl
  | some n =>
    have hmem : n ∈ l := byIndex_mem hn
    obtain ⟨e, he, hd⟩ := h.fwd n hmem
    have hus : ∀ e ∈ bsdUsables k addrs, e.index ∈ linkIndexes addrs ∧ ∃ ia ∈ addrs, ia.name = e.name ∧ ∃ t i hw, ia.addr = .link t i hw := by
      intro e he
      obtain ⟨ia, hia, hu⟩ := List.mem_filterMap.mp he
      obtain ⟨name, ad⟩ := ia
      cases ad with
      | link t j hw =>
        unfold bsdUsable at hu
        dsimp only at hu
        split at hu
        · obtain ⟨ty, -, rfl⟩ := Option.map_eq_some_iff.mp hu
          exact ⟨List.mem_filterMap.mpr ⟨_, hia, rfl⟩, _, hia, rfl, t, j, hw, rfl⟩
        · cases hu
      | _ => cases hu
    have hkind : e.kind = 1 ∨ e.kind = 0 ∨ e.kind = -1 ∨ e.kind = 12 ∨ e.kind = 13 ∨ e.kind = 2 := by
      obtain ⟨ia, hia, hu⟩ := List.mem_filterMap.mp he
      obtain ⟨name, ad⟩ := ia
      cases ad with
      | link t j hw =>
        unfold bsdUsable at hu
        dsimp only at hu
        split at hu
        · obtain ⟨ty, hty, rfl⟩ := Option.map_eq_some_iff.mp hu
          exact bsdKind_cases hty
        · cases hu
      | _ => cases hu
    rw [← hd.2.2] at hkind
    dsimp only
    have h11 : ¬ n.type = NETIF_TEAMING := by unfold NETIF_TEAMING; omega
    rw [if_neg h11]
    by_cases h12 : n.type = NETIF_BONDING
    · rw [if_pos h12, if_pos h12]
      congr 1
      unfold bsdBond netifBond
      dsimp only [asLinux]
      cases hg : k.lagg n.name with
      | none => rfl
      | some g =>
        rw [Option.map_some]
        dsimp only
        have hmode : (fun (x : Netif) => { x with bondingMode :=
              if (if g.proto = 4 then 4 else if g.proto = 2 then 1 else 0) = 4 then 1
              else if (if g.proto = 4 then 4 else if g.proto = 2 then 1 else 0) = 1 then 2 else x.bondingMode }) =
            (fun (x : Netif) => { x with bondingMode := if g.proto = 4 then 1 else if g.proto = 2 then 2 else x.bondingMode }) := by
          funext x
          by_cases h4 : g.proto = 4
          · simp [h4]
          · by_cases h2 : g.proto = 2
            · simp [h2]
            · simp [h4, h2]
        rw [hmode]
        congr 1
        rw [List.zipIdx_map, List.filterMap_map]
        rw [← List.filterMap_eq_map]
        congr 1
        funext x
        obtain ⟨p, j⟩ := x
        show some (_, _) = some (_, _)
        congr 2
        funext y
        dsimp only
        by_cases h4 : p.2 &&& 4 = 0 <;> simp [h4]
    · rw [if_neg h12, if_neg h12]
      by_cases h13 : n.type = NETIF_BRIDGE
      · rw [if_pos h13, if_pos h13]
        unfold bsdBridge netifBridge
        dsimp only [asLinux]
        cases hg : k.members n.name with
        | none => rfl
        | some ms =>
          rw [Option.map_some]
          dsimp only
          have hlen := hok.bridge e he ms (by rw [← hd.2.1, hg]; exact List.mem_singleton.mpr rfl)
          have hrd : bridgeRead k ms.length 32 8192 = .ok (some ms.length) := by
            refine bridgeRead_start k hok.memory hok.req.1 _ ?_
            have : k.reqSize * (ms.length + 1) ≤ 4096 * 1025 := Nat.mul_le_mul hok.req.2 (by omega)
            omega
          rw [hrd]
          show Res.ok _ = _
          rw [List.take_length, members_link n.index ms h hnd, List.take_of_length_le]
          exact Nat.le_trans (List.length_filterMap_le _ _) hlen
      · rw [if_neg h13, if_neg h13]
        by_cases hv : n.type = NETIF_VLAN
        · rw [if_pos hv, if_pos hv]
          unfold bsdVlan netifVlan
          obtain ⟨-, ia, hia, -, t, j, hw, hl⟩ := hus e he
          obtain ⟨nm, hnm⟩ : ∃ nm, lastLink addrs = some nm := by
            cases hll : lastLink addrs with
            | some nm => exact ⟨nm, rfl⟩
            | none =>
              unfold lastLink at hll
              rw [List.getLast?_eq_none_iff, List.filterMap_eq_nil_iff] at hll
              have := hll ia hia
              rw [hl] at this
              cases this
          dsimp only [asLinux]
          rw [hnm]
          dsimp only [Option.bind_some]
          cases hkv : k.vlan nm with
          | none => rfl
          | some r =>
            obtain ⟨dev, tag⟩ := r
            rw [Option.map_some]
            dsimp only
            cases netifByName l dev <;> rfl
        · rw [if_neg hv, if_neg hv]
          by_cases h0 : n.type = NETIF_REGULAR
          · rw [if_pos h0, if_pos h0]
            unfold bsdDeviceId netifDeviceId
            by_cases hid : n.deviceIdentified ≠ 0
            · rw [if_pos hid, if_pos hid]
            · rw [if_neg hid, if_neg hid]
              dsimp only
              have hdr := hok.driver n.index (by rw [hd.1]; exact (hus e he).1)
              obtain ⟨t, ht, hz, htl⟩ := bsdDriver_eq hdr
              have hcs := bsdDriver_cstr hdr
              have hset : ∀ d : Bytes, setNetif (setNetif l n.index (fun n => { n with deviceIdentified := 1 })) n.index
                  (fun n => { n with deviceName := d }) = setNetif l n.index (fun n => { n with deviceIdentified := 1, deviceName := d }) := by
                intro d
                unfold setNetif
                rw [List.map_map]
                refine List.map_congr_left (fun x _ => ?_)
                dsimp only [Function.comp]
                by_cases hx : x.index = n.index
                · simp [hx]
                · simp [hx]
              have hrhs : ∀ r, deviceText k n.index = r →
                  setNetif l n.index (fun n =>
                    { n with
                      deviceIdentified := 1,
                      deviceName := (((asLinux k addrs).deviceId n.index).map (fun d => (cstr d).take 63)).getD n.deviceName }) =
                  setNetif l n.index (fun n =>
                    { n with
                      deviceIdentified := 1,
                      deviceName := (r.map (fun d => (cstr d).take 63)).getD n.deviceName }) := by
                intro r hr
                unfold setNetif
                refine List.map_congr_left (fun x _ => ?_)
                dsimp only
                by_cases hx : x.index = n.index
                · rw [if_pos hx, if_pos hx, show (asLinux k addrs).deviceId x.index = r from by rw [hx]; exact hr]
                · rw [if_neg hx, if_neg hx]
              by_cases hnil : cstr (bsdDriver k n.index) = []
              · rw [if_pos hnil]
                have hdt : deviceText k n.index = none := by
                  unfold deviceText unitDot
                  dsimp only
                  rw [hnil]
                  rfl
                rw [hrhs none hdt]
                rfl
              · rw [if_neg hnil]
                cases hu : unitDot (bsdDriver k n.index) with
                | none =>
                  have hdt : deviceText k n.index = none := by unfold deviceText; rw [hu]
                  rw [hrhs none hdt]
                  rfl
                | some dn =>
                  dsimp only
                  have hdn : 0 ∈ dn ∧ (cstr dn).length ≤ 16 := by
                    unfold unitDot at hu
                    dsimp only at hu
                    split at hu
                    · cases hu
                    · injection hu with hu
                      obtain ⟨u, hzu, -⟩ := zapUnit_prefix (cstr (bsdDriver k n.index))
                      rw [hcs] at hu hzu
                      rw [ht] at hu
                      have hno : (0 : UInt8) ∉ (k.driver n.index).getD [] := by
                        cases hk : k.driver n.index with
                        | none => exact List.not_mem_nil
                        | some d => exact (hdr d (by rw [hk]; exact List.mem_singleton.mpr rfl)).2
                      have hsl : ((k.driver n.index).getD []).length ≤ 15 := by
                        cases hk : k.driver n.index with
                        | none => exact Nat.zero_le _
                        | some d => exact (hdr d (by rw [hk]; exact List.mem_singleton.mpr rfl)).1
                      generalize (k.driver n.index).getD [] = s at hu hzu hno htl hsl
                      generalize zapUnit s = stem at hu hzu
                      subst hzu
                      rw [List.drop_left, List.drop_append, List.drop_of_length_le (by omega),
                        show (stem ++ u).length + 1 - (stem ++ u).length = 1 by omega] at hu
                      cases t with
                      | nil => rw [List.length_nil] at htl; omega
                      | cons z t =>
                        have hz0 := hz z List.mem_cons_self
                        subst hz0
                        have hu' : (stem ++ [46] ++ u) ++ 0 :: t = dn := hu
                        rw [← hu']
                        rw [List.mem_append, not_or] at hno
                        rw [List.length_append] at hsl
                        refine ⟨List.mem_append_right _ List.mem_cons_self, ?_⟩
                        rw [cstr_of_no_nul]
                        · rw [List.length_append, List.length_append, List.length_singleton]; omega
                        · rw [List.mem_append, List.mem_append]
                          rintro ((h | h) | h)
                          · exact hno.1 h
                          · exact absurd h (by decide)
                          · exact hno.2 h
                  have hds : descSysctl dn = .ok (lit "dev." ++ cstr dn ++ lit ".%desc") := by
                    unfold descSysctl
                    rw [if_pos hdn.1, List.take_of_length_le]
                    rw [List.length_append, List.length_append]
                    have h1 : (lit "dev.").length = 4 := by decide
                    have h2 : (lit ".%desc").length = 6 := by decide
                    have := hdn.2
                    omega
                  rw [hds]
                  have hdt : deviceText k n.index = k.sysctl (lit "dev." ++ cstr dn ++ lit ".%desc") := by unfold deviceText; rw [hu]
                  rw [hrhs _ hdt]
                  show (match k.sysctl (lit "dev." ++ cstr dn ++ lit ".%desc") with | none => _ | some d => _) = _
                  cases hsy : k.sysctl (lit "dev." ++ cstr dn ++ lit ".%desc") with
                  | none => rfl
                  | some d =>
                    dsimp only
                    rw [hset]
                    have hdd := hok.device _ d (by rw [hsy]; exact List.mem_singleton.mpr rfl)
                    have hc : cstr (sysctlOut 64 d) = (cstr d).take 63 := by
                      unfold sysctlOut
                      rw [List.take_of_length_le (by rw [List.length_append, List.length_singleton]; omega), cstr_of_no_nul hdd.2 [],
                        cstr_self hdd.2, List.take_of_length_le hdd.1]
                    rw [hc]
                    rfl
          · rw [if_neg h0, if_neg h0]

theorem bsdDetectAll_asLinux {k : BsdKernel} {addrs : List BIfAddr} (hok : BsdOk k addrs) (is : List Nat) {l : List Netif}
    (h : Mirror (bsdUsables k addrs) l) (hnd : (l.map (·.index)).Nodup) :
    bsdDetectAll k (lastLink addrs) is l = .ok (is.foldl (detectOne (asLinux k addrs)) l) := by
  induction is generalizing l with
  | nil => rfl
  | cons i is ih =>
    rw [bsdDetectAll, bsdDetect_asLinux hok h hnd i]
    show bsdDetectAll k (lastLink addrs) is _ = _
    have hc := detectOne_core (asLinux k addrs) l i
    rw [ih (h.core hc) (by rw [map_index_of_core hc]; exact hnd), List.foldl_cons]

/-! ## The whole detection -/

theorem listOk_asLinux {k : BsdKernel} {addrs : List BIfAddr} (hok : BsdOk k addrs) :
    ListOk (asLinux k addrs) (addrs.map asIfAddr) := by
  refine ⟨?_, ?_, ?_, ?_⟩
  · rw [usables_asLinux]; exact hok.index
  · rw [usables_asLinux]; exact hok.name
  · rw [usables_asLinux]
    intro e he
    obtain ⟨ia, hia, hu⟩ := List.mem_filterMap.mp he
    have hs := hok.short ia hia
    unfold bsdUsable at hu
    split at hu
    · split at hu
      · obtain ⟨t, -, rfl⟩ := Option.map_eq_some_iff.mp hu
        exact hs
      · cases hu
    · cases hu
  · intro x hx
    obtain ⟨ia, hia, rfl⟩ := List.mem_map.mp hx
    have ha := hok.addr ia hia
    obtain ⟨name, ad⟩ := ia
    cases ad with
    | link t i hw =>
      show (hw ++ [0, 0]).length = 8
      have : hw.length = 6 := ha
      rw [List.length_append, this]
      rfl
    | inet a => exact ha
    | inet6 a => exact ha
    | absent => trivial
    | other => trivial

theorem addrStep_asIfAddr (m : Mgmt) (x : List Netif × Option Nat) (ia : BIfAddr) (h : bsdAddrOk ia) :
    addrStep m x (bsdIfAddr ia) = addrStep m x (asIfAddr ia) := by
  obtain ⟨name, ad⟩ := ia
  cases ad with
  | link t i hw =>
    have hl : hw.length = 6 := h
    have e : (hw ++ [0, 0]).take 6 = hw.take 6 := by rw [List.take_append_of_le_length (by omega)]
    unfold addrStep bsdIfAddr asIfAddr
    dsimp only
    rw [e, if_neg (by intro h; cases h), if_neg (by intro h; cases h)]
  | inet a => rfl
  | inet6 a => rfl
  | absent => rfl
  | other => rfl

theorem netifAddrs_asLinux (o : Opts) (m : Mgmt) {addrs : List BIfAddr} (h : ∀ ia ∈ addrs, bsdAddrOk ia) (l : List Netif)
    (mn : Option Nat) : netifAddrs o m (addrs.map bsdIfAddr) l mn = netifAddrs o m (addrs.map asIfAddr) l mn := by
  have e : ∀ x, (addrs.map bsdIfAddr).foldl (addrStep m) x = (addrs.map asIfAddr).foldl (addrStep m) x := by
    induction addrs with
    | nil => intro x; rfl
    | cons ia addrs ih =>
      intro x
      rw [List.map_cons, List.map_cons, List.foldl_cons, List.foldl_cons, addrStep_asIfAddr m x ia (h ia List.mem_cons_self),
        ih (fun y hy => h y (List.mem_cons_of_mem _ hy))]
  unfold netifAddrs
  rw [e]

/-- Detection on FreeBSD is defined, and is detection on Linux with the translated answers. -/
theorem bsdFetch_asLinux (o : Opts) (names : List Bytes) (m : Mgmt) (k : BsdKernel) (s : Ifs) {addrs : List BIfAddr}
    (h : k.ifaddrs = some addrs) (hok : BsdOk k addrs) (hs : (s.netifs.map (·.index)).Nodup) :
    bsdFetch o names m k s = .ok (netifFetch o names m (asLinux k addrs) s) := by
  have hl := listOk_asLinux hok
  have hla : (asLinux k addrs).ifaddrs = some (addrs.map asIfAddr) := rfl
  unfold bsdFetch netifFetch
  rw [h, hla]
  dsimp only
  rw [bsd_fold hok m addrs (fun _ h => h), lastLink_fold, Option.or_none]
  dsimp only
  have hmir : Mirror (bsdUsables k addrs) (netifFetch o names m (asLinux k addrs) s).1.netifs := by
    have := fetch_mirror o names m (asLinux k addrs) s _ hla hl hs
    rw [usables_asLinux] at this
    exact this
  have hnd := fetch_nodup o names m (asLinux k addrs) s _ hla hl hs
  have hcore : (netifFetch o names m (asLinux k addrs) s).1.netifs.map core =
      (listed (asLinux k addrs) s.netifs (usables (asLinux k addrs) (addrs.map asIfAddr))).map core := by
    rw [core_of_ident (netifFetch_ident o names m (asLinux k addrs) s hla hl hs), detected_core]
  have hfold := fetch_fold (asLinux k addrs) m (addrs.map asIfAddr) ⟨s.netifs.map (fun n => { n with type := NETIF_OLD }),
    { s.sys with cap := s.sys.cap &&& 12, capActive := s.sys.capActive &&& 12, physifCount := 0 }, s.mnetif, 0⟩
  obtain ⟨f1, -, -⟩ := hfold
  generalize (addrs.map asIfAddr).foldl (fetchStep (asLinux k addrs) m) ⟨s.netifs.map (fun n => { n with type := NETIF_OLD }),
    { s.sys with cap := s.sys.cap &&& 12, capActive := s.sys.capActive &&& 12, physifCount := 0 }, s.mnetif, 0⟩ = a at f1 ⊢
  have hus : (addrs.map asIfAddr).filterMap (usable (asLinux k addrs)) = usables (asLinux k addrs) (addrs.map asIfAddr) := rfl
  have hk : ∀ e ∈ usables (asLinux k addrs) (addrs.map asIfAddr), e.kind ≠ NETIF_OLD := by
    intro e he
    have := usables_kind he
    unfold NETIF_OLD
    omega
  have hal : (usables (asLinux k addrs) (addrs.map asIfAddr)).foldl (addLive (asLinux k addrs))
      (s.netifs.map (fun n => { n with type := NETIF_OLD })) =
      afterLoop (asLinux k addrs) s.netifs (usables (asLinux k addrs) (addrs.map asIfAddr)) := by
    have := addLive_fold (asLinux k addrs) s.netifs (usables (asLinux k addrs) (addrs.map asIfAddr)) [] hs
      (by rw [List.nil_append]; exact hl.index)
    rw [afterLoop_nil, List.nil_append] at this
    exact this
  have hlist := afterLoop_filter (asLinux k addrs) s.netifs (usables (asLinux k addrs) (addrs.map asIfAddr)) hk
  have hf : a.netifs.filter (fun n => n.type != NETIF_OLD) = listed (asLinux k addrs) s.netifs (usables (asLinux k addrs) (addrs.map asIfAddr)) := by
    rw [f1, hus, hal, hlist]
  rw [← hf] at hcore
  rw [bsdDetectAll_asLinux hok _ (hmir.core hcore.symm) (by rw [← map_index_of_core hcore]; exact hnd)]
  show Res.ok _ = _
  rw [netifAddrs_asLinux o m hok.addr]
  rfl

/-! ## Ports -/

theorem portsOf_asLinux {k : BsdKernel} {addrs : List BIfAddr} (hok : BsdOk k addrs) {l : List Netif}
    (h : Mirror (bsdUsables k addrs) l) (hnd : (l.map (·.index)).Nodup) {n : Netif} (hn : n ∈ l) :
    portsOf (asLinux k addrs) l n = bsdPorts k l n := by
  obtain ⟨e, he, hd⟩ := h.fwd n hn
  unfold portsOf bsdPorts
  dsimp only
  congr 2
  by_cases h11 : n.type = 11
  · rw [if_pos h11, if_neg (by omega), if_neg (by omega)]
    rfl
  · rw [if_neg h11]
    by_cases h12 : n.type = 12
    · rw [if_pos h12, if_pos h12]
      dsimp only [asLinux]
      cases k.lagg n.name with
      | none => rfl
      | some g =>
        rw [Option.map_some]
        dsimp only
        refine congrArg (List.filterMap id) ?_
        generalize g.ports.take 32 = ps
        induction ps with
        | nil => rfl
        | cons p ps ih =>
          rw [List.map_cons, List.filterMap_cons_some (f := id) (a := some (p.1, decide (p.2 &&& 4 = 0))) rfl, List.map_cons, ih]
          rfl
    · rw [if_neg h12, if_neg h12]
      by_cases h13 : n.type = 13
      · rw [if_pos h13, if_pos h13]
        dsimp only [asLinux]
        cases hg : k.members n.name with
        | none => rfl
        | some ms =>
          rw [Option.map_some]
          dsimp only
          have hlen := hok.bridge e he ms (by rw [← hd.2.1, hg]; exact List.mem_singleton.mpr rfl)
          rw [List.take_of_length_le (Nat.le_trans (List.length_filterMap_le _ _) hlen), Option.getD_some]
          clear hlen hg
          induction ms with
          | nil => rfl
          | cons s ms ih =>
            have hb := byName_byIndex h hnd s
            rw [← withName_eq] at hb
            cases hl : linkNamed (bsdUsables k addrs) s with
            | none =>
              rw [hl] at hb
              rw [List.filterMap_cons_none (by rw [hl]; rfl), ih, List.map_cons, List.filterMap_cons_none]
              exact hb
            | some e =>
              rw [hl] at hb
              rw [List.filterMap_cons_some (b := e.index) (by rw [hl]; rfl), List.map_cons, List.map_cons]
              have hx : withIndex l e.index = withName l s := by rw [withIndex_eq]; exact hb.symm
              rw [hx]
              cases hw : withName l s with
              | none => rw [List.filterMap_cons_none (f := id) (a := none) rfl, List.filterMap_cons_none (f := id) (a := none) rfl]; exact ih
              | some x => rw [List.filterMap_cons_some (f := id) (a := some x) rfl, List.filterMap_cons_some (f := id) (a := some x) rfl, ih]
      · rw [if_neg h13, if_neg h13]
        rfl

theorem kernelOk_asLinux {k : BsdKernel} {addrs : List BIfAddr} (hok : BsdOk k addrs) {l : List Netif}
    (h : Mirror (bsdUsables k addrs) l) (hnd : (l.map (·.index)).Nodup) (ho : BsdOnce k l) : KernelOk (asLinux k addrs) l := by
  refine ⟨?_, ?_, ?_⟩
  · intro n hn
    rw [portsOf_asLinux hok h hnd hn]
    exact ho.nodup n hn
  · intro n hn n' hn' m
    rw [portsOf_asLinux hok h hnd hn, portsOf_asLinux hok h hnd hn']
    exact ho.once n hn n' hn' m
  · intro n hn t _ ht
    cases ht

/-! ## Addresses and details -/

theorem bsd4_asLinux (addrs : List BIfAddr) (name : Bytes) : v4Of (addrs.map asIfAddr) name = bsd4Of addrs name := by
  unfold v4Of bsd4Of
  rw [List.filterMap_map]
  congr 1
  funext ia
  obtain ⟨n, a⟩ := ia
  cases a <;> rfl

theorem bsd6_asLinux (addrs : List BIfAddr) (name : Bytes) : v6Of (addrs.map asIfAddr) name = bsd6Of addrs name := by
  unfold v6Of bsd6Of
  rw [List.filterMap_map]
  congr 1
  funext ia
  obtain ⟨n, a⟩ := ia
  cases a <;> rfl

theorem bsdHw_asLinux (addrs : List BIfAddr) (name : Bytes) :
    hwOf (addrs.map asIfAddr) name = (bsdHwOf addrs name).map (· ++ [0, 0]) := by
  unfold hwOf bsdHwOf
  rw [List.filterMap_map, List.map_filterMap]
  congr 1
  funext ia
  obtain ⟨n, a⟩ := ia
  cases a with
  | link t i hw =>
    show (if n = name then some (hw ++ [0, 0]) else none) = Option.map _ (if n = name then some hw else none)
    split <;> rfl
  | _ => rfl

theorem modeOf_asLinux {k : BsdKernel} {addrs : List BIfAddr} (n : Netif) : modeOf (asLinux k addrs) n = bsdMode k n := by
  unfold modeOf bsdMode
  by_cases h12 : n.type = 12
  · rw [if_pos h12, if_pos h12]
    dsimp only [asLinux]
    cases k.lagg n.name with
    | none => rfl
    | some g =>
      rw [Option.map_some]
      dsimp only
      by_cases h4 : g.proto = 4
      · rw [if_pos h4, h4]; rfl
      · rw [if_neg h4]
        by_cases h2 : g.proto = 2
        · rw [if_pos h2, h2]; rfl
        · rw [if_neg h2]
          show 0 = _
          split
          · contradiction
          · contradiction
          · rfl
  · rw [if_neg h12, if_neg h12]
    split <;> rfl

theorem lastLink_eq {k : BsdKernel} {addrs : List BIfAddr} (hok : BsdOk k addrs) : lastLink addrs = lastName addrs := by
  have : ∀ l : List BIfAddr, (∀ ia ∈ l, ia.name.length ≤ 15) →
      l.filterMap (fun ia => match ia.addr with | .link _ _ _ => some (ia.name.take 15) | _ => none) =
      (l.filter (fun ia => match ia.addr with | .link _ _ _ => true | _ => false)).map (·.name) := by
    intro l hl
    induction l with
    | nil => rfl
    | cons ia l ih =>
      have ih := ih (fun x hx => hl x (List.mem_cons_of_mem _ hx))
      obtain ⟨n, a⟩ := ia
      cases a with
      | link t i hw =>
        rw [List.filter_cons_of_pos rfl, List.map_cons, ← ih]
        have := List.take_of_length_le (hl _ List.mem_cons_self)
        dsimp only at this ⊢
        conv => rhs; rw [← this]
        rfl
      | _ =>
        rw [List.filter_cons_of_neg Bool.false_ne_true, ← ih]
        rfl
  unfold lastLink lastName
  rw [this addrs hok.short, List.getLast?_map]
  rfl

theorem vlanOf_asLinux {k : BsdKernel} {addrs : List BIfAddr} (hok : BsdOk k addrs) (l : List Netif) (n : Netif) :
    vlanOf (asLinux k addrs) l n =
      if n.type = -1 then match lastName addrs with | some name => bsdVlanOf k l name | none => (0, 0) else (0, 0) := by
  unfold vlanOf
  by_cases hv : n.type = -1
  · rw [if_pos hv, if_pos hv]
    dsimp only [asLinux]
    rw [lastLink_eq hok]
    cases lastName addrs with
    | none => rfl
    | some nm =>
      dsimp only [Option.bind_some]
      unfold bsdVlanOf
      cases k.vlan nm with
      | none => rfl
      | some r => rfl
  · rw [if_neg hv, if_neg hv]

theorem active_bit (f : Nat) : f &&& 4 = 0 ↔ f.testBit 2 = false := by
  constructor
  · intro h
    have := congrArg (fun x => x.testBit 2) h
    simp only [Nat.testBit_and, show Nat.testBit 4 2 = true from rfl, Bool.and_true, Nat.zero_testBit] at this
    exact this
  · intro h
    refine Nat.eq_of_testBit_eq (fun i => ?_)
    rw [Nat.testBit_and, Nat.zero_testBit]
    by_cases hi : i = 2
    · rw [hi, h]; rfl
    · rw [show (4 : Nat) = 2 ^ 2 from rfl, Nat.testBit_two_pow_of_ne (Ne.symm hi), Bool.and_false]

theorem roleIn_asLinux {k : BsdKernel} {addrs : List BIfAddr} (l : List Netif) (n : Netif) (j c x : Nat)
    (h : RoleIn (asLinux k addrs) l n j c x) : BsdRole k l n j c x := by
  rcases h with ⟨-, -, t, ht, -⟩ | ⟨t1, b, i, s, e1, e2, e3, rfl, rfl⟩ | ⟨t1, rfl, rfl⟩
  · cases ht
  · left
    obtain ⟨g, hg, rfl⟩ := Option.map_eq_some_iff.mp e1
    dsimp only at e2
    rw [List.getElem?_map] at e2
    obtain ⟨p, hp, hps⟩ := Option.map_eq_some_iff.mp e2
    injection hps with hps
    subst hps
    rw [List.getElem?_take] at hp
    by_cases hi : i < 32
    · rw [if_pos hi] at hp
      refine ⟨t1, g, p, hg, by omega, ?_, e3, ?_⟩
      · rw [Nat.mod_eq_of_lt (by omega)]; exact hp
      · dsimp only
        by_cases hb : p.2.testBit 2 = true
        · rw [if_pos hb, if_neg]
          intro h
          have := (active_bit p.2).mp (of_decide_eq_true h)
          rw [hb] at this
          cases this
        · rw [if_neg hb, if_pos]
          exact decide_eq_true ((active_bit p.2).mpr (by simpa using hb))
    · rw [if_neg hi] at hp
      cases hp
  · exact .inr ⟨t1, rfl, rfl⟩

theorem deviceText_is {k : BsdKernel} {i : Nat} (h : ∀ d ∈ (k.driver i).toList, d.length ≤ 15 ∧ (0 : UInt8) ∉ d) :
    (∀ text, DeviceIs k i text → deviceText k i = text) ∧ ((∀ text, ¬ DeviceIs k i text) → deviceText k i = none) := by
  obtain ⟨t, ht, hz, htl⟩ := bsdDriver_eq h
  have hcs := bsdDriver_cstr h
  have hun : ∀ d, k.driver i = some d → unitDot (bsdDriver k i) =
      if d.drop (zapUnit d).length = [] then none else some (zapUnit d ++ [46] ++ d.drop (zapUnit d).length ++ t) := by
    intro d hd
    unfold unitDot
    dsimp only
    rw [hcs, ht, hd]
    dsimp only [Option.getD_some]
    have e : (d ++ 0 :: t).drop (d.length + 1) = t := by
      rw [List.drop_append, List.drop_of_length_le (Nat.le_succ _), Nat.add_sub_cancel_left]
      rfl
    rw [e]
  have htext : ∀ d u, k.driver i = some d → d = zapUnit d ++ u → u ≠ [] →
      deviceText k i = k.sysctl (lit "dev." ++ zapUnit d ++ lit "." ++ u ++ lit ".%desc") := by
    intro d u hd hu hne
    have hdo := hun d hd
    have hdd := h d (by rw [hd]; exact List.mem_singleton.mpr rfl)
    have hdr : d.drop (zapUnit d).length = u := by
      conv => lhs; rw [hu]
      rw [show (zapUnit (zapUnit d ++ u)).length = (zapUnit d).length from by rw [← hu], List.drop_left]
    rw [hdr, if_neg hne] at hdo
    unfold deviceText
    rw [hdo]
    dsimp only
    rw [hd, Option.getD_some] at htl
    cases t with
    | nil => rw [List.length_nil] at htl; omega
    | cons z t =>
      have hz0 := hz z List.mem_cons_self
      subst hz0
      rw [cstr_of_no_nul]
      · congr 1
      · have hno := hdd.2
        rw [hu, List.mem_append, not_or] at hno
        rw [List.mem_append, List.mem_append]
        rintro ((h | h) | h)
        · exact hno.1 h
        · exact absurd h (by decide)
        · exact hno.2 h
  constructor
  · rintro text ⟨stem, unit, hd, hne, hun, hst, rfl⟩
    have hz := zapUnit_append stem unit hun hst
    have := htext _ unit hd (by rw [hz]) hne
    rw [hz] at this
    exact this
  · intro hno
    cases hd : k.driver i with
    | none =>
      unfold deviceText unitDot
      dsimp only
      rw [hcs, hd]
      rfl
    | some d =>
      obtain ⟨u, hu, hdu⟩ := zapUnit_prefix d
      by_cases hne : u = []
      · unfold deviceText
        rw [hun d hd, if_pos]
        rw [hne, List.append_nil] at hu
        rw [← hu, List.drop_length]
      · refine absurd ⟨zapUnit d, u, by rw [hd]; exact congrArg some hu, hne, hdu, ?_, rfl⟩ (hno _)
        intro c hc hdc
        have hl := zapUnit_last d
        exact hl c hc hdc

end Ladvd
