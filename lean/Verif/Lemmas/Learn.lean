import Verif.Lemmas.Build
import Verif.Lemmas.Decode
import Verif.Lemmas.Unshow
/-!
# What a receiver learns from ladvd's own advertisements
-/

namespace Ladvd

open Spec

theorem peerText_self {n : Nat} {v : Bytes} (h : cText n v) (hn : n ≤ 511) : peerText v = v := by
  obtain ⟨h1, h2⟩ := h
  unfold peerText
  rw [List.take_of_length_le (by omega)]
  clear h1
  induction v with
  | nil => rfl
  | cons a x ih =>
    rw [List.takeWhile_cons, if_pos (by simpa using h2 a (by simp)), ih (fun c hc => h2 c (by simp [hc]))]

theorem peerText_nul {n : Nat} {v : Bytes} (h : cText n v) (hn : n < 511) : peerText (v ++ [0]) = v := by
  obtain ⟨h1, h2⟩ := h
  unfold peerText
  rw [List.take_of_length_le (by simp; omega)]
  clear h1
  induction v with
  | nil => simp
  | cons a x ih =>
    rw [List.cons_append, List.takeWhile_cons, if_pos (by simpa using h2 a (by simp)), ih (fun c hc => h2 c (by simp [hc]))]

theorem unshow_shown {n : Nat} {v : Bytes} (h : cText n v) (hn : n ≤ 511) : unshow (shown v) = some v := by
  unfold shown; rw [unshow_flatMap _ unshow_showByte, peerText_self h hn]

theorem unshow_shownGlob {n : Nat} {v : Bytes} (h : cText n v) (hn : n ≤ 511) : unshow (shownGlob v) = some v := by
  unfold shownGlob; rw [unshow_flatMap _ unshow_showByteGlob, peerText_self h hn]

theorem unshow_shownGlob_nul {n : Nat} {v : Bytes} (h : cText n v) (hn : n < 511) :
    unshow (shownGlob (v ++ [0])) = some v := by
  unfold shownGlob; rw [unshow_flatMap _ unshow_showByteGlob, peerText_nul h hn]

/-! ## CDP -/

theorem addrEntry_enc (pt : UInt8) (pr : Bytes) (a0 a1 : UInt8) (ad r : Bytes) (hp : pr.length < 256)
    (ha : beNat [a0, a1] = ad.length) :
    addrEntry (pt :: UInt8.ofNat pr.length :: (pr ++ (a0 :: a1 :: (ad ++ r)))) = some (⟨pt.toNat, pr, ad⟩, r) := by
  have hl : (UInt8.ofNat pr.length).toNat = pr.length := by rw [UInt8.toNat_ofNat']; omega
  have h1 : (pr ++ (a0 :: a1 :: (ad ++ r))).drop pr.length = a0 :: a1 :: (ad ++ r) := List.drop_left
  have h2 : (pr ++ (a0 :: a1 :: (ad ++ r))).drop (pr.length + 2) = ad ++ r := by
    rw [← List.drop_drop, h1]; rfl
  have h3 : (pr ++ (a0 :: a1 :: (ad ++ r))).take pr.length = pr := List.take_left
  unfold addrEntry
  simp only [hl, h1, h2, h3, List.take_succ_cons, List.take_zero, ha]
  rw [if_neg (by simp), if_neg (by simp), List.take_left, List.drop_left]

/-- Addresses learnt from an address TLV. -/
def learnAddrs (n : Netif) (p : Peer) : Peer :=
  { p with
    inet4 := if configured n.ipaddr4 then first p.inet4 n.ipaddr4 else p.inet4
    inet6 := if configured n.ipaddr6 then first p.inet6 n.ipaddr6 else p.inet6 }

theorem addrTlv_learn (t : Nat) (ht : t = 0x02 ∨ t = 0x16) (n : Netif) (hn : NetifOk n) (s : Msg) :
    (addrTlv t n).foldlM (cdpMeaning false) s = some { s with peer := learnAddrs n s.peer } := by
  have h4 : n.ipaddr4.length = 4 := hn.2.2.2.2.2.2.1
  have h6 : n.ipaddr6.length = 16 := hn.2.2.2.2.2.2.2.1
  have E4 : ∀ r, addrEntry ([1, 1, 0xcc, 0, 4] ++ n.ipaddr4 ++ r) = some (⟨1, [0xcc], n.ipaddr4⟩, r) := by
    intro r
    have := addrEntry_enc 1 [0xcc] 0 4 n.ipaddr4 r (by simp) (by rw [h4]; decide)
    simpa using this
  have E6 : ∀ r, addrEntry ([2, 8, 0xaa, 0xaa, 0x03, 0x00, 0x00, 0x00, 0x86, 0xdd, 0, 16] ++ n.ipaddr6 ++ r) =
      some (⟨2, [0xaa, 0xaa, 0x03, 0x00, 0x00, 0x00, 0x86, 0xdd], n.ipaddr6⟩, r) := by
    intro r
    have := addrEntry_enc 2 [0xaa, 0xaa, 0x03, 0x00, 0x00, 0x00, 0x86, 0xdd] 0 16 n.ipaddr6 r (by simp)
      (by rw [h6]; decide)
    simpa using this
  have key : ∀ v, cdpMeaning false s (t, v) =
      (if v.length < 4 then none else (do
        let es ← addrEntries (addrLimit (beNat (v.take 4))) (v.drop 4)
        es.foldlM (addrMeaning false) s)) := by
    intro v; rcases ht with rfl | rfl <;> rfl
  have M4 : ∀ s : Msg, addrMeaning false s ⟨1, [0xcc], n.ipaddr4⟩ =
      some { s with peer := { s.peer with inet4 := first s.peer.inet4 n.ipaddr4 } } := by
    intro s; simp [addrMeaning, h4, showOr]
  have M6 : ∀ s : Msg, addrMeaning false s ⟨2, [0xaa, 0xaa, 0x03, 0x00, 0x00, 0x00, 0x86, 0xdd], n.ipaddr6⟩ =
      some { s with peer := { s.peer with inet6 := first s.peer.inet6 n.ipaddr6 } } := by
    intro s; simp [addrMeaning, h6, showOr]
  have b1 : beNat (be32 1) = 1 := by decide
  have b2 : beNat (be32 2) = 2 := by decide
  have T : ∀ (k : Nat) (r : Bytes), (be32 k ++ r).take 4 = be32 k := by intro k r; simp [be32]
  have D : ∀ (k : Nat) (r : Bytes), (be32 k ++ r).drop 4 = r := by intro k r; simp [be32]
  unfold addrTlv learnAddrs
  by_cases c4 : configured n.ipaddr4 <;> by_cases c6 : configured n.ipaddr6
  · simp only [c4, c6, if_true, List.cons_append, List.nil_append]
    rw [if_neg (by simp)]
    simp only [List.foldlM_cons, List.foldlM_nil, key]
    rw [if_neg (by simp)]
    have e : ([1 :: 1 :: 0xcc :: 0 :: 4 :: n.ipaddr4, 2 :: 8 :: 0xaa :: 0xaa :: 0x03 :: 0x00 :: 0x00 :: 0x00 :: 0x86 :: 0xdd :: 0 :: 16 :: n.ipaddr6] : List Bytes).flatten
      = [1, 1, 0xcc, 0, 4] ++ n.ipaddr4 ++ ([2, 8, 0xaa, 0xaa, 0x03, 0x00, 0x00, 0x00, 0x86, 0xdd, 0, 16] ++ n.ipaddr6 ++ []) := by simp
    simp only [T, D, List.length_cons, List.length_nil, Nat.zero_add, Nat.reduceAdd, b2, addrLimit, e]
    simp only [Nat.reduceEqDiff, if_false, addrEntries, E4]
    have E6n := E6 []
    simp only [List.append_nil, List.cons_append, List.nil_append] at E6n
    simp [E6n, M4, M6]
  · simp only [c4, c6, if_true, if_false, List.cons_append, List.append_nil, List.nil_append]
    rw [if_neg (by simp)]
    simp only [List.foldlM_cons, List.foldlM_nil, key]
    rw [if_neg (by simp)]
    have e : ([1 :: 1 :: 0xcc :: 0 :: 4 :: n.ipaddr4] : List Bytes).flatten = [1, 1, 0xcc, 0, 4] ++ n.ipaddr4 ++ [] := by simp
    simp only [T, D, List.length_cons, List.length_nil, Nat.zero_add, b1, addrLimit, e]
    simp only [Nat.reduceEqDiff, if_false, addrEntries, E4]
    simp [M4]
  · simp only [c4, c6, if_true, if_false, List.cons_append, List.nil_append]
    rw [if_neg (by simp)]
    simp only [List.foldlM_cons, List.foldlM_nil, key]
    rw [if_neg (by simp)]
    have e : ([2 :: 8 :: 0xaa :: 0xaa :: 0x03 :: 0x00 :: 0x00 :: 0x00 :: 0x86 :: 0xdd :: 0 :: 16 :: n.ipaddr6] : List Bytes).flatten
      = [2, 8, 0xaa, 0xaa, 0x03, 0x00, 0x00, 0x00, 0x86, 0xdd, 0, 16] ++ n.ipaddr6 ++ [] := by simp
    simp only [T, D, List.length_cons, List.length_nil, Nat.zero_add, b1, addrLimit, e]
    simp only [Nat.reduceEqDiff, if_false, addrEntries, E6]
    simp [M6]
  · simp only [c4, c6, if_false, List.append_nil, if_true, List.foldlM_nil]
    rfl

/-- What a CDP receiver remembers of an advertisement. -/
def cdpPeer (e : PktEnv) : Peer :=
  let p : Peer := {
    hostname := some (shown e.sys.hostname)
    portname := some (shown e.nif.name)
    cap := some (capLetters (cdpCaps (cdpCapBits e.sys.capActive))) }
  let p := learnAddrs (carrier e) p
  match e.mnetif with | some m => learnAddrs m p | none => p

theorem cdpCapBits_lt (c : Nat) : cdpCapBits c < 32 := by
  unfold cdpCapBits
  cases c.testBit 1 <;> cases c.testBit 3 <;> cases c.testBit 4 <;> split <;> decide

theorem cdp_learn (e : PktEnv) (h : EnvOk e) (s : Msg) (hs : s.peer = {}) :
    (cdpAdvert e).foldlM (cdpMeaning false) s = some { s with peer := cdpPeer e } := by
  unfold cdpAdvert
  simp only [List.foldlM_append]
  have hcap : beNat (be32 (cdpCapBits e.sys.capActive)) = cdpCapBits e.sys.capActive := by
    rw [beNat_be32]; have := cdpCapBits_lt e.sys.capActive; omega
  have h1 : [(0x01, e.sys.hostname), (0x05, e.sys.utsStr), (0x06, e.sys.platform), (0x03, e.nif.name),
      (0x04, be32 (cdpCapBits e.sys.capActive))].foldlM (cdpMeaning false) s = some { s with peer := {
        hostname := some (shown e.sys.hostname)
        portname := some (shown e.nif.name)
        cap := some (capLetters (cdpCaps (cdpCapBits e.sys.capActive))) } } := by
    simp [cdpMeaning, showOr, hs, first, hcap]
  rw [h1]
  simp only [Option.bind_eq_bind, Option.bind_some]
  rw [addrTlv_learn 0x02 (by simp) _ (carrier_ok h)]
  simp only [Option.bind_some]
  generalize hq : learnAddrs (carrier e) _ = q
  have hqh : q.hostname = some (shown e.sys.hostname) := by rw [← hq]; rfl
  have hm : (mgmtAddrs e).foldlM (cdpMeaning false) { s with peer := q } =
      some { s with peer := (match e.mnetif with | some m => learnAddrs m q | none => q) } := by
    unfold mgmtAddrs
    cases hp : e.mnetif with
    | none => rfl
    | some m => exact addrTlv_learn 0x16 (by simp) _ (h.2.2.1 m (by simp [hp])) _
  rw [hm]
  simp only [Option.bind_some]
  generalize hq2 : (match e.mnetif with | some m => learnAddrs m q | none => q) = q2
  have hq2h : q2.hostname = some (shown e.sys.hostname) := by
    rw [← hq2]; cases e.mnetif <;> exact hqh
  have hpeer : cdpPeer e = q2 := by rw [← hq2, ← hq]; rfl
  rw [hpeer]
  have hmtu : (if e.nif.mtu = 0 then [] else [(0x11, be32 e.nif.mtu)]).foldlM (cdpMeaning false) { s with peer := q2 } =
      some { s with peer := q2 } := by split <;> rfl
  rw [hmtu]
  simp only [Option.bind_some]
  have hdup : (if e.nif.duplex = -1 then [] else [(0x0b, [UInt8.ofInt e.nif.duplex])]).foldlM (cdpMeaning false) { s with peer := q2 } =
      some { s with peer := q2 } := by
    split
    · rfl
    · simp [cdpMeaning]
  rw [hdup]
  simp only [Option.bind_some]
  have hloc : (if e.sys.location = [] then [] else [(0x17, 0 :: e.sys.location)]).foldlM (cdpMeaning false) { s with peer := q2 } =
      some { s with peer := q2 } := by split <;> rfl
  rw [hloc]
  simp only [Option.bind_some]
  simp only [List.foldlM_cons, List.foldlM_nil, cdpMeaning, showOr, first, hq2h]
  simp
  rw [← hq2h]

/-! ## FDP -/

/-- What an FDP receiver remembers of an advertisement. -/
def fdpPeer (e : PktEnv) : Peer := {
  hostname := some (shownGlob e.sys.hostname)
  portname := some (shownGlob e.nif.name)
  cap := some (capLetters (fdpCapBit (fdpCapName e.sys.capActive))) }

theorem fdp_learn (e : PktEnv) (s : Msg) (hs : s.peer = {}) :
    (fdpAdvert e).foldl fdpMeaning s = { s with peer := fdpPeer e } := by
  unfold fdpAdvert
  rw [List.foldl_append]
  have ha : ∀ s : Msg, (addrTlv 2 (manager e)).foldl fdpMeaning s = s := by
    intro s; unfold addrTlv; dsimp only; generalize (_ ++ _ : List Bytes) = l; by_cases hl : l = [] <;> simp [hl, fdpMeaning]
  rw [ha]
  simp [fdpMeaning, hs, first, fdpPeer]

/-! ## EDP -/

/-- What an EDP receiver remembers of an advertisement. -/
def edpPeer (e : PktEnv) : Peer := { hostname := some (shownGlob (e.sys.hostname ++ [0])) }

theorem edp_learn (e : PktEnv) (s : Msg) (hs : s.peer = {}) :
    (marked (edpAdvert e)).foldl edpMeaning s = { s with peer := edpPeer e } := by
  unfold edpAdvert marked
  simp only [List.map_append, List.foldl_append, List.map_map]
  have hv : ∀ (l : List Netif) (g : Netif → Bytes) (s : Msg),
      (l.map ((fun t => ((0x99 : UInt8), t)) ∘ fun v => (5, g v))).foldl edpMeaning s = s := by
    intro l g
    induction l with
    | nil => intro s; rfl
    | cons a l ih => intro s; simp only [List.map_cons, List.foldl_cons]; exact ih s
  rw [hv]
  split <;> simp [edpMeaning, hs, first, edpPeer]

/-! ## LLDP -/

/-- What an LLDP receiver remembers of an advertisement. -/
def lldpPeer (e : PktEnv) : Peer := {
  hostname := some (shown e.sys.hostname)
  portname := some (shown e.nif.name)
  portdescr := if portDescr e = [] then none else some (shown (portDescr e))
  cap := some (capLetters (lldpCaps (if e.sys.cap = 4 then 128 else lldpCapWord e.sys.capActive)))
  inet4 := if configured (manager e).ipaddr4 then some (manager e).ipaddr4 else none
  inet6 := if configured (manager e).ipaddr6 then some (manager e).ipaddr6 else none
  mac := some (manager e).hwaddr }

/-- `lldpCapWord` as a function of the four bits. -/
def capWord4 (b r w x : Bool) : Nat := (if b ∨ w then 4 else 0) + (if r then 16 else 0) + (if x then 8 else 0)

theorem capWord4_sub : ∀ b r w x b' r' w' x' : Bool, (b' = true → b = true) → (r' = true → r = true) →
    (w' = true → w = true) → (x' = true → x = true) →
    capWord4 b' r' w' x' &&& capWord4 b r w x = capWord4 b' r' w' x' ∧ (capWord4 b r w x).testBit 7 = false ∧
      capWord4 b r w x < 65536 := by
  decide

theorem lldpCap_learn (sys : SysInfo) (hc : CapsOk sys) (s : Msg) (hs : s.peer.cap = none) :
    lldpMeaning false s (7, lldpCapPair sys) = some { s with peer := { s.peer with
      cap := some (capLetters (lldpCaps (if sys.cap = 4 then 128 else lldpCapWord sys.capActive))) } } := by
  unfold lldpCapPair
  by_cases h4 : sys.cap = 4
  · simp only [h4, if_true]
    have b : beNat [0, 128] = 128 := by decide
    have t : (128 : Nat).testBit 7 = true := by decide
    simp [lldpMeaning, b, first, hs]
  · simp only [h4, if_false]
    have k := capWord4_sub (sys.cap.testBit 1) (sys.cap.testBit 3) (sys.cap.testBit 4) (sys.cap.testBit 5)
      (sys.capActive.testBit 1) (sys.capActive.testBit 3) (sys.capActive.testBit 4) (sys.capActive.testBit 5)
      (hc 1 (by simp)) (hc 3 (by simp)) (hc 4 (by simp)) (hc 5 (by simp))
    have k2 := capWord4_sub (sys.capActive.testBit 1) (sys.capActive.testBit 3) (sys.capActive.testBit 4) (sys.capActive.testBit 5)
      (sys.capActive.testBit 1) (sys.capActive.testBit 3) (sys.capActive.testBit 4) (sys.capActive.testBit 5) id id id id
    have e1 : lldpCapWord sys.cap = capWord4 (sys.cap.testBit 1) (sys.cap.testBit 3) (sys.cap.testBit 4) (sys.cap.testBit 5) := rfl
    have e2 : lldpCapWord sys.capActive = capWord4 (sys.capActive.testBit 1) (sys.capActive.testBit 3)
      (sys.capActive.testBit 4) (sys.capActive.testBit 5) := rfl
    rw [← e1, ← e2] at k
    rw [← e2] at k2
    have tk : (be16 (lldpCapWord sys.cap) ++ be16 (lldpCapWord sys.capActive)).take 2 = be16 (lldpCapWord sys.cap) :=
      List.take_left (l₁ := be16 (lldpCapWord sys.cap))
    have dr : (be16 (lldpCapWord sys.cap) ++ be16 (lldpCapWord sys.capActive)).drop 2 = be16 (lldpCapWord sys.capActive) :=
      List.drop_left (l₁ := be16 (lldpCapWord sys.cap))
    unfold lldpMeaning
    dsimp only
    rw [if_neg (by decide), if_neg (by decide), if_neg (by decide), if_neg (by decide), if_pos rfl,
      if_neg (by simp), tk, dr, beNat_be16, beNat_be16, Nat.mod_eq_of_lt k.2.2, Nat.mod_eq_of_lt k2.2.2,
      if_neg (by simp [k.1]), if_neg (by simp [k.2.1])]
    simp [first, hs]

theorem mgmt_learn (fam : UInt8) (a : Bytes) (i : Nat) (s : Msg) :
    lldpMeaning false s (mgmtTlv fam a i) = mgmtMeaning false s
      (UInt8.ofNat (a.length + 1) :: fam :: (a ++ ([2] ++ be32 i ++ [0]))) := by
  unfold lldpMeaning mgmtTlv
  simp

theorem org_learn (o : Bytes) (r : Bytes) (sub : UInt8) (s : Msg) (ho : o.length = 3)
    (h : o ≠ [0x00, 0x80, 0xc2] ∨ sub ≠ 1) : lldpMeaning false s (127, o ++ sub :: r) = some s := by
  have tk : (o ++ sub :: r).take 3 = o := by rw [← ho]; exact List.take_left
  have dr : (o ++ sub :: r).drop 3 = sub :: r := by rw [← ho]; exact List.drop_left
  unfold lldpMeaning orgMeaning
  dsimp only
  rw [if_neg (by decide), if_neg (by decide), if_neg (by decide), if_neg (by decide), if_neg (by decide),
    if_neg (by decide), if_pos rfl, if_neg (by simp; omega), tk, dr]
  by_cases h1 : o = [0x00, 0x80, 0xc2]
  · rw [if_neg (by simp [h1])]
    rcases h with h | h
    · exact absurd h1 h
    · simp [h]
  · rw [if_pos h1]

theorem inventory_learn (sub : UInt8) (v : Bytes) (s : Msg) :
    (inventory sub v).foldlM (lldpMeaning false) s = some s := by
  unfold inventory
  split
  · rfl
  · have := org_learn [0x00, 0x12, 0xbb] v sub s rfl (by simp)
    simp only [List.cons_append, List.nil_append] at this
    simp only [List.foldlM_cons, List.foldlM_nil, List.cons_append, List.nil_append, this]
    rfl

theorem foldlM_id {α β : Type} (l : List α) (f : β → α → Option β) (s : β) (h : ∀ a ∈ l, f s a = some s) :
    l.foldlM f s = some s := by
  induction l with
  | nil => rfl
  | cons a l ih =>
    simp only [List.foldlM_cons, h a (by simp)]
    exact ih (fun b hb => h b (by simp [hb]))

theorem lldp_learn (e : PktEnv) (h : EnvOk e) (hc : CapsOk e.sys) (s : Msg) (hh : s.peer = { portname := some (shown e.nif.name) }) :
    (lldpAdvert e).foldlM (lldpMeaning false) s = some { s with peer := lldpPeer e } := by
  have hm := manager_ok h
  have h4 : (manager e).ipaddr4.length = 4 := hm.2.2.2.2.2.2.1
  have h6 : (manager e).ipaddr6.length = 16 := hm.2.2.2.2.2.2.2.1
  have hw6 : (manager e).hwaddr.length = 6 := hm.2.2.2.2.2.1
  unfold lldpAdvert
  simp only [List.foldlM_append, inventory_learn, Option.bind_eq_bind]
  have hd : (if portDescr e = [] then [] else [(4, portDescr e)]).foldlM (lldpMeaning false) s =
      some { s with peer := { s.peer with portdescr := if portDescr e = [] then none else some (shown (portDescr e)) } } := by
    by_cases hp : portDescr e = []
    · simp only [hp, if_true, List.foldlM_nil]
      rw [hh]
      cases s; simp_all
    · simp [hp, lldpMeaning, showOr, first, hh]
  rw [hd]
  simp only [Option.bind_some]
  have h1 : ∀ s : Msg, s.peer.hostname = none → s.peer.cap = none →
      [(5, e.sys.hostname), (6, e.sys.utsStr), (7, lldpCapPair e.sys)].foldlM (lldpMeaning false) s =
      some { s with peer := { s.peer with
        hostname := some (shown e.sys.hostname)
        cap := some (capLetters (lldpCaps (if e.sys.cap = 4 then 128 else lldpCapWord e.sys.capActive))) } } := by
    intro s hs1 hs2
    have hl : ¬ 255 < e.sys.hostname.length := by have := h.2.2.2.2.1.1; omega
    have m5 : lldpMeaning false s (5, e.sys.hostname) = some { s with peer := { s.peer with hostname := some (shown e.sys.hostname) } } := by
      unfold lldpMeaning
      dsimp only
      rw [if_neg (by decide), if_pos rfl, if_neg hl, if_neg (by simp [hs1])]
      rfl
    have m6 : ∀ s, lldpMeaning false s (6, e.sys.utsStr) = some s := by intro s; rfl
    simp only [List.foldlM_cons, List.foldlM_nil, m5, m6, Option.bind_eq_bind, Option.bind_some]
    rw [lldpCap_learn e.sys hc { s with peer := { s.peer with hostname := some (shown e.sys.hostname) } } hs2]
    rfl
  rw [h1 _ (by simp [hh]) (by simp [hh])]
  simp only [Option.bind_some]
  have m4 : ∀ s : Msg, s.peer.inet4 = none →
      (if configured (manager e).ipaddr4 then [mgmtTlv 1 (manager e).ipaddr4 (manager e).index] else []).foldlM (lldpMeaning false) s =
      some { s with peer := { s.peer with inet4 := if configured (manager e).ipaddr4 then some (manager e).ipaddr4 else none } } := by
    intro s hs
    split
    · simp only [List.foldlM_cons, List.foldlM_nil]
      rw [mgmt_learn, h4]
      have tk : ((manager e).ipaddr4 ++ ([2] ++ be32 (manager e).index ++ [0])).take 4 = (manager e).ipaddr4 := by
        rw [← h4]; exact List.take_left
      have e5 : (UInt8.ofNat (4 + 1) - 1).toNat = 4 := by decide
      simp [mgmtMeaning, hs, h4, showOr, first]
    · rw [← hs]; rfl
  rw [m4 _ (by simp [hh])]
  simp only [Option.bind_some]
  have m6 : ∀ s : Msg, s.peer.inet6 = none →
      (if configured (manager e).ipaddr6 then [mgmtTlv 2 (manager e).ipaddr6 (manager e).index] else []).foldlM (lldpMeaning false) s =
      some { s with peer := { s.peer with inet6 := if configured (manager e).ipaddr6 then some (manager e).ipaddr6 else none } } := by
    intro s hs
    split
    · simp only [List.foldlM_cons, List.foldlM_nil]
      rw [mgmt_learn, h6]
      simp [mgmtMeaning, hs, h6, showOr, first]
    · rw [← hs]; rfl
  rw [m6 _ (by simp [hh])]
  simp only [Option.bind_some]
  have mm : ∀ s : Msg, s.peer.mac = none →
      [mgmtTlv 6 (manager e).hwaddr (manager e).index].foldlM (lldpMeaning false) s =
      some { s with peer := { s.peer with mac := some (manager e).hwaddr } } := by
    intro s hs
    simp only [List.foldlM_cons, List.foldlM_nil]
    rw [mgmt_learn, hw6]
    simp [mgmtMeaning, hs, hw6, showOr, first]
  rw [mm _ (by simp [hh])]
  simp only [Option.bind_some]
  generalize hq : ({ s with peer := _ } : Msg) = q
  have hv : ((vlansOf e).map (fun v => (127, [0x00, 0x80, 0xc2, 3] ++ be16 v.vlanId ++ [UInt8.ofNat v.name.length] ++ v.name))).foldlM
      (lldpMeaning false) q = some q := by
    apply foldlM_id
    intro a ha
    obtain ⟨v, _, rfl⟩ := List.mem_map.mp ha
    have := org_learn [0x00, 0x80, 0xc2] (be16 v.vlanId ++ [UInt8.ofNat v.name.length] ++ v.name) 3 q rfl (by simp)
    simpa using this
  rw [hv]
  simp only [Option.bind_some]
  have o1 : ∀ (o r : Bytes) (sub : UInt8), o.length = 3 → o ≠ [0x00, 0x80, 0xc2] → lldpMeaning false q (127, o ++ sub :: r) = some q :=
    fun o r sub ho hne => org_learn o r sub q ho (Or.inl hne)
  have n1 : (if e.nif.autonegSupported = -1 then [] else
    [(127, [0x00, 0x12, 0x0f, 1, UInt8.ofInt (e.nif.autonegSupported + 2 * e.nif.autonegEnabled)] ++
      be16 e.nif.autonegPmd ++ be16 e.nif.mau)]).foldlM (lldpMeaning false) q = some q := by
    apply foldlM_id
    intro a ha
    split at ha
    · cases ha
    · simp only [List.mem_singleton] at ha
      subst ha
      exact o1 [0x00, 0x12, 0x0f] _ 1 rfl (by decide)
  rw [n1]
  simp only [Option.bind_some]
  have n2 : (if (carrier e).bondingMode = 1 then [(127, [0x00, 0x12, 0x0f, 3, 3] ++ be32 e.nif.lacpIndex)] else []).foldlM
      (lldpMeaning false) q = some q := by
    apply foldlM_id
    intro a ha
    split at ha
    · simp only [List.mem_singleton] at ha
      subst ha
      exact o1 [0x00, 0x12, 0x0f] _ 3 rfl (by decide)
    · cases ha
  rw [n2]
  simp only [Option.bind_some]
  have n3 : (if e.nif.mtu = 0 then [] else [(127, [0x00, 0x12, 0x0f, 4] ++ be16 (e.nif.mtu + 22))]).foldlM
      (lldpMeaning false) q = some q := by
    apply foldlM_id
    intro a ha
    split at ha
    · cases ha
    · simp only [List.mem_singleton] at ha
      subst ha
      exact o1 [0x00, 0x12, 0x0f] _ 4 rfl (by decide)
  rw [n3]
  simp only [Option.bind_some]
  have n4 : [(127, [0x00, 0x12, 0xbb, 1] ++ be16 e.sys.capLldpmed ++ [UInt8.ofInt e.sys.lldpmedDevtype])].foldlM
      (lldpMeaning false) q = some q := by
    apply foldlM_id
    intro a ha
    simp only [List.mem_singleton] at ha
    subst ha
    exact o1 [0x00, 0x12, 0xbb] _ 1 rfl (by decide)
  rw [n4]
  simp only [Option.bind_some]
  have n5 : (if e.sys.country.length = 2 ∧ e.sys.location ≠ [] then
    [(127, [0x00, 0x12, 0xbb, 3, 2, UInt8.ofNat (5 + e.sys.location.length), 2] ++ e.sys.country ++
      [22, UInt8.ofNat e.sys.location.length] ++ e.sys.location)] else []).foldlM (lldpMeaning false) q = some q := by
    apply foldlM_id
    intro a ha
    split at ha
    · simp only [List.mem_singleton] at ha
      subst ha
      exact o1 [0x00, 0x12, 0xbb] _ 3 rfl (by decide)
    · cases ha
  rw [n5, ← hq]
  simp [hh, lldpPeer]

end Ladvd
