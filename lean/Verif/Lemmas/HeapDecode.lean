import Verif.Lemmas.Heap
/-!
# Lemmas: the decoders on the memory level agree with the ones on values
-/

namespace Ladvd
open Spec

/-! ## Text conversion -/

theorem ref_strCopy (m : Bytes) (pos length : Nat) {i : Nat} (hi : i < 8) :
    Ref (hStrCopy m pos length >>= fun p => hPeerStr i p)
      (fun s => tlvStrCopy m pos length >>= fun str => .ok { s with peer := keepFirst i str s.peer }) sameMsg := by
  unfold hStrCopy
  rw [hm_assoc]
  exact ref_lift _ (fun v => ref_store v hi)

theorem ref_strAddr (af : Nat) (m : Bytes) (pos length : Nat) {i : Nat} (hi : i < 8) :
    Ref (hStrAddr af m pos length >>= fun p => hPeerStr i p)
      (fun s => tlvStrAddr af m pos length >>= fun str => .ok { s with peer := keepFirst i str s.peer }) sameMsg := by
  unfold hStrAddr
  rw [hm_assoc]
  exact ref_lift _ (fun v => ref_store v hi)

theorem ref_set {x : HMsg → HMsg} {f : Msg → Msg} (h : ∀ s, msgTexts (x s) = f (msgTexts s))
    (hh : ∀ s, (x s).heap = s.heap) (hp : ∀ s, (x s).peer = s.peer) :
    Ref (fun s => .ok () (x s)) (fun s => .ok (f s)) sameMsg := by
  intro base s ho
  refine ⟨by show Res.ok (f (msgTexts s)) = _; rw [← h]; rfl, ?_⟩
  obtain ⟨h1, h2, h3, h4, h5⟩ := ho
  exact ⟨by rw [hh]; exact h1, by rw [hp]; exact h2, by rw [hp]; exact h3, by rw [hp, hh]; exact h4,
    by rw [hp, hh]; exact h5⟩

theorem ref_ttl (n : Nat) : Ref (hTtl n) (fun s => .ok { s with ttl := n }) sameMsg :=
  ref_set (fun _ => rfl) (fun _ => rfl) (fun _ => rfl)

/-! ## CDP -/

theorem ref_cdpHeader (m : Bytes) (c : Cur) : Ref (hCdpHeader m c) (fun s => cdpHeaderCheck m c s) sameMsg := by
  unfold hCdpHeader cdpHeaderCheck
  refine ref_ite (fun _ => ref_fail) (fun _ => ref_lift _ (fun h => ?_))
  exact ref_ite (fun _ => ref_fail) (fun _ => ref_set (fun _ => rfl) (fun _ => rfl) (fun _ => rfl))

theorem ref_cdpName (m : Bytes) (c : Cur) : Ref (hCdpText 0 m c) (fun s => cdpSystemName m false c s) sameMsg :=
  ref_strCopy m c.pos c.length (i := 0) (by omega)

theorem ref_cdpPort (m : Bytes) (c : Cur) : Ref (hCdpText 1 m c) (fun s => cdpPortId m false c s) sameMsg :=
  ref_strCopy m c.pos c.length (i := 1) (by omega)

theorem ref_cdpCap (m : Bytes) (c : Cur) : Ref (hCdpCap m c) (fun s => cdpSystemCap m false c s) sameMsg := by
  unfold hCdpCap cdpSystemCap
  refine ref_ite (fun _ => ref_fail) (fun _ => ref_lift _ ?_)
  rintro ⟨cc, c'⟩
  exact ref_store _ (i := 3) (by omega)

theorem cdpAf_cases {m : Bytes} {pos pt pl af : Nat} (h : cdpAf m pos pt pl = .ok af) : af = 0 ∨ af = 4 ∨ af = 5 := by
  unfold cdpAf at h
  split at h
  · cases hr : rd m pos pl with
    | ok b =>
      rw [hr] at h
      simp only [Res.bind_eq, Res.bind_ok, Res.pure_eq, Res.ok.injEq] at h
      subst h
      split
      · exact .inr (.inl rfl)
      · exact .inl rfl
    | _ => rw [hr] at h; exact absurd h (by simp)
  · split at h
    · cases hr : rd m pos pl with
      | ok b =>
        rw [hr] at h
        simp only [Res.bind_eq, Res.bind_ok, Res.pure_eq, Res.ok.injEq] at h
        subst h
        split
        · exact .inr (.inr rfl)
        · exact .inl rfl
      | _ => rw [hr] at h; exact absurd h (by simp)
    · exact .inl (by simpa using h.symm)

/-- As `ref_lift`, with the result known. -/
theorem ref_lift' {α γ δ : Type} (r : Res α) {k : α → HM γ} {kv : α → Msg → Res δ}
    {g : γ → Msg → δ} (h2 : ∀ a, r = .ok a → Ref (k a) (kv a) g) :
    Ref (hLift r >>= k) (fun s => r >>= fun a => kv a s) g := by
  intro base s ho
  show Agrees base g (HM.bind (hLift r) k s) (r.bind (fun a => kv a (msgTexts s)))
  unfold HM.bind hLift
  cases r with
  | ok a => exact h2 a rfl base s ho
  | fail => exact ⟨rfl, ho⟩
  | oob => rfl
  | abort => rfl
  | stuck => rfl

theorem setAddr_keep {af : Nat} (h : af = 4 ∨ af = 5 ∨ af = 6) (p : Peer) (v : Bytes) :
    p.setAddr af v = keepFirst af v p := by
  rcases h with rfl | rfl | rfl <;> rfl

theorem addr_slot {af : Nat} (h : af = 4 ∨ af = 5 ∨ af = 6) (p : Peer) : p.addr af = slotOf af p := by
  rcases h with rfl | rfl | rfl <;> rfl

/-- The position with the message. -/
def withCur : Cur → Msg → Cur × Msg := fun c s => (c, s)

theorem ref_cdpAddrOne (m : Bytes) (c : Cur) : Ref (hCdpAddrOne m c) (fun s => cdpAddrOne m false c s) withCur := by
  unfold hCdpAddrOne cdpAddrOne
  refine ref_lift _ ?_
  rintro ⟨pt, c1⟩
  refine ref_lift _ ?_
  rintro ⟨pl, c2⟩
  dsimp only
  refine ref_ite (fun _ => ref_fail) (fun _ => ref_lift' _ (fun af haf => ref_lift _ (fun c3 => ref_lift _ ?_)))
  rintro ⟨al, c4⟩
  dsimp only
  refine ref_ite (fun _ => ref_fail) (fun _ => ?_)
  have hskip : Ref (hLift (skip al c4)) (fun s => skip al c4 >>= fun c => pure (c, s)) withCur := by
    refine ref_congr (ref_lift (skip al c4) (k := fun c => pure c) (kv := fun c s => .ok (c, s)) (g := withCur)
      (fun c => ref_pure c withCur)) ?_ (fun s => rfl)
    funext s
    show HM.bind (hLift (skip al c4)) _ s = _
    unfold HM.bind
    cases hl : hLift (skip al c4) s <;> rfl
  refine ref_ite (fun h0 => ?_) (fun _ => hskip)
  have h45 : af = 4 ∨ af = 5 ∨ af = 6 := by rcases cdpAf_cases haf with h | h | h <;> omega
  refine ref_congr (ref_bind (kv := fun s => skip al c4 >>= fun c => pure (c, s))
    (ref_strAddr af m c4.pos al (i := af) (by omega)) (fun _ => hskip))
    (hm_assoc _ _ _) (fun s => ?_)
  simp only [setAddr_keep h45]
  cases tlvStrAddr af m c4.pos al <;> rfl

theorem ref_cdpAddrLoop (m : Bytes) (fuel count : Nat) (c : Cur) :
    Ref (hCdpAddrLoop m fuel count c) (fun s => cdpAddrLoop m false fuel count c s) sameMsg := by
  induction fuel generalizing count c with
  | zero => exact ref_stuck
  | succ fuel ih =>
    unfold hCdpAddrLoop cdpAddrLoop
    refine ref_bind (ref_cdpAddrOne m c) (fun c' => ?_)
    exact ref_ite (fun _ => ih _ _) (fun _ => ref_pure () sameMsg)

theorem ref_cdpAddr (m : Bytes) (c : Cur) : Ref (hCdpAddr m c) (fun s => cdpAddr m false c s) sameMsg := by
  unfold hCdpAddr cdpAddr
  refine ref_lift _ ?_
  rintro ⟨count, c'⟩
  exact ref_cdpAddrLoop m _ _ _

theorem ref_cdpVlan (m : Bytes) (c : Cur) : Ref (hCdpVlan m c) (fun s => cdpVlan m false c s) sameMsg := by
  unfold hCdpVlan cdpVlan
  refine ref_ite (fun _ => ref_fail) (fun _ => ref_lift _ ?_)
  rintro ⟨v, c'⟩
  exact ref_store _ (i := 7) (by omega)

theorem ref_cdpTlv (m : Bytes) (t : Nat) (c : Cur) : Ref (hCdpTlv m t c) (fun s => cdpTlv m false t c s) sameMsg := by
  unfold hCdpTlv cdpTlv
  refine ref_ite (fun _ => ref_cdpName m c) (fun _ => ref_ite (fun _ => ref_cdpPort m c) (fun _ =>
    ref_ite (fun _ => ref_cdpCap m c) (fun _ => ref_ite (fun _ => ref_cdpAddr m c) (fun _ => ?_))))
  by_cases h5 : t = 0x05 ∨ t = 0x06
  · have : ¬ t = 0x0a := by omega
    simp only [if_pos h5, if_neg this]
    exact ref_pure () sameMsg
  simp only [if_neg h5]
  by_cases h9 : t = 0x09
  · have : ¬ t = 0x0a := by omega
    simp only [if_pos h9, if_neg this]
    exact ref_pure () sameMsg
  simp only [if_neg h9]
  refine ref_ite (fun _ => ref_cdpVlan m c) (fun _ => ?_)
  by_cases hb : t = 0x0b
  · simp only [if_pos hb]
    exact ref_pure () sameMsg
  · simp only [if_neg hb]
    exact ref_pure () sameMsg

theorem ref_cdpLoop (m : Bytes) (fuel : Nat) (c : Cur) :
    Ref (hCdpLoop m fuel c) (fun s => cdpLoop m false fuel c s) withCur := by
  induction fuel generalizing c with
  | zero => exact ref_stuck
  | succ fuel ih =>
    unfold hCdpLoop cdpLoop
    refine ref_ite (fun _ => ref_pure c withCur) (fun _ => ref_lift _ ?_)
    rintro ⟨t, l, c'⟩
    dsimp only
    refine ref_ite (fun _ => ref_fail) (fun _ => ?_)
    refine ref_bind (ref_cdpTlv m t _) (fun _ => ?_)
    exact ref_lift _ (fun c'' => ih _)

/-- The message with the returned length. -/
def withLen : Nat → Msg → Msg × Nat := fun n s => (s, n)

theorem ref_cdpDecode (m : Bytes) (len : Nat) : Ref (hCdpDecode m len) (fun s => cdpDecode false m len s) withLen := by
  unfold hCdpDecode cdpDecode
  refine ref_lift _ (fun p => ?_)
  refine ref_bind (ref_cdpHeader m _) (fun _ => ?_)
  refine ref_bind (ref_cdpLoop m _ _) (fun c => ?_)
  exact ref_pure c.pos withLen

/-! ## LLDP -/

theorem ref_lldpChassis (m : Bytes) (c : Cur) :
    Ref (hLldpChassis c) (fun s => lldpChassisId m false c s) sameMsg := by
  unfold hLldpChassis lldpChassisId
  exact ref_ite (fun _ => ref_fail) (fun _ => ref_pure () sameMsg)

theorem ref_lldpPort (m : Bytes) (c : Cur) : Ref (hLldpPort m c) (fun s => lldpPortId m false c s) sameMsg := by
  unfold hLldpPort lldpPortId
  refine ref_ite (fun _ => ref_fail) (fun _ => ref_lift _ ?_)
  rintro ⟨sub, c'⟩
  dsimp only
  refine ref_ite (fun _ => ref_strCopy m _ _ (i := 1) (by omega)) (fun _ => ?_)
  by_cases h3 : sub = 3
  · simp only [if_pos h3]; exact ref_pure () sameMsg
  · simp only [if_neg h3]; exact ref_pure () sameMsg

theorem ref_lldpName (m : Bytes) (c : Cur) : Ref (hLldpName m c) (fun s => lldpSystemName m false c s) sameMsg := by
  unfold hLldpName lldpSystemName
  refine ref_ite (fun _ => ref_fail) (fun _ => ?_)
  exact ref_slot (i := 0) (by omega) ref_fail (ref_strCopy m _ _ (i := 0) (by omega))

theorem ref_lldpCap (m : Bytes) (c : Cur) : Ref (hLldpCap m c) (fun s => lldpSystemCap m false c s) sameMsg := by
  unfold hLldpCap lldpSystemCap
  refine ref_ite (fun _ => ref_fail) (fun _ => ref_lift _ ?_)
  rintro ⟨avail, c1⟩
  refine ref_lift _ ?_
  rintro ⟨act, c2⟩
  dsimp only
  exact ref_ite (fun _ => ref_fail) (fun _ => ref_ite (fun _ => ref_fail) (fun _ => ref_store _ (i := 3) (by omega)))

theorem ref_lldpMgmt (m : Bytes) (c : Cur) : Ref (hLldpMgmt m c) (fun s => lldpMgmtAddr m false c s) sameMsg := by
  unfold hLldpMgmt lldpMgmtAddr
  refine ref_lift _ ?_
  rintro ⟨aflen, c1⟩
  refine ref_lift _ ?_
  rintro ⟨afnum, c2⟩
  dsimp only
  have haf : (if afnum = 1 then PEER_ADDR_INET4 else if afnum = 2 then PEER_ADDR_INET6
    else if afnum = 6 then PEER_ADDR_802 else 0) = 0 ∨ (if afnum = 1 then PEER_ADDR_INET4 else if afnum = 2 then PEER_ADDR_INET6
    else if afnum = 6 then PEER_ADDR_802 else 0) = 4 ∨ (if afnum = 1 then PEER_ADDR_INET4 else if afnum = 2 then PEER_ADDR_INET6
    else if afnum = 6 then PEER_ADDR_802 else 0) = 5 ∨ (if afnum = 1 then PEER_ADDR_INET4 else if afnum = 2 then PEER_ADDR_INET6
    else if afnum = 6 then PEER_ADDR_802 else 0) = 6 := by
    by_cases h1 : afnum = 1
    · simp [h1, PEER_ADDR_INET4]
    · by_cases h2 : afnum = 2
      · simp [h2, PEER_ADDR_INET6]
      · by_cases h6 : afnum = 6
        · simp [h6, PEER_ADDR_802]
        · simp [h1, h2, h6]
  generalize (if afnum = 1 then PEER_ADDR_INET4 else if afnum = 2 then PEER_ADDR_INET6
    else if afnum = 6 then PEER_ADDR_802 else 0) = af at haf ⊢
  refine ref_ite (fun _ => ref_fail) (fun h0 => ref_ite (fun _ => ref_fail) (fun _ => ?_))
  have h456 : af = 4 ∨ af = 5 ∨ af = 6 := by omega
  refine ref_congr (ref_slot (i := af) (by omega) (ref_pure () sameMsg)
    (ref_strAddr af m c2.pos ((aflen + 256 - 1) % 256) (i := af) (by omega))) rfl (fun s => ?_)
  simp only [setAddr_keep h456, addr_slot h456]
  cases (slotOf af s.peer).isSome
  · simp
  · simp [sameMsg]

theorem ref_lldp8021 (m : Bytes) (c : Cur) :
    Ref (hLldpPrivate8021 m c) (fun s => lldpPrivate8021 m false c s) sameMsg := by
  unfold hLldpPrivate8021 lldpPrivate8021
  refine ref_lift _ ?_
  rintro ⟨sub, c1⟩
  dsimp only
  refine ref_ite (fun _ => ref_ite (fun _ => ref_fail) (fun _ => ref_lift _ ?_)) (fun _ => ref_pure () sameMsg)
  rintro ⟨v, c2⟩
  exact ref_store _ (i := 7) (by omega)

/-- A temporary block around other code. -/
theorem ref_thenFree (b : Bytes) {x : HM Unit} {v : Msg → Res Msg} (h : Ref x v sameMsg) :
    Ref (hMalloc b >>= fun p => hThenFree p x) v sameMsg := by
  intro base s ho
  obtain ⟨ho', hv, hb⟩ := own_malloc ho b
  show Agrees base sameMsg ((hThenFree s.heap.next x) { s with heap := (s.heap.malloc b).2 }) _
  rw [← hv]
  generalize { s with heap := (s.heap.malloc b).2 } = s1 at ho' ⊢
  generalize s.heap.next = q at ho' hb ⊢
  have hx := h _ s1 ho'
  unfold hThenFree
  cases hxs : x s1 with
  | ok a s2 =>
    rw [hxs] at hx
    obtain ⟨hx1, hx2⟩ := hx
    obtain ⟨s3, hf, ho3, hv3, -⟩ := own_free hb hx2
    dsimp only
    rw [hf, hx1]
    exact ⟨by rw [hv3], ho3⟩
  | fail s2 =>
    rw [hxs] at hx
    obtain ⟨hx1, hx2⟩ := hx
    obtain ⟨s3, hf, ho3, hv3, -⟩ := own_free hb hx2
    dsimp only
    rw [hf, hx1]
    exact ⟨rfl, ho3⟩
  | oob => rw [hxs] at hx; exact hx
  | abort => rw [hxs] at hx; exact hx
  | stuck => rw [hxs] at hx; exact hx

theorem ref_lldpPrivate (m : Bytes) (c : Cur) : Ref (hLldpPrivate m c) (fun s => lldpPrivate m false c s) sameMsg := by
  unfold hLldpPrivate lldpPrivate
  refine ref_lift _ ?_
  rintro ⟨v, c1⟩
  dsimp only
  exact ref_thenFree v (ref_ite (fun _ => ref_lldp8021 m c1) (fun _ => ref_pure () sameMsg))

theorem ref_lldpTlv (m : Bytes) (t : Nat) (c : Cur) :
    Ref (hLldpTlv m t c) (fun s => lldpTlv m false t c s) sameMsg := by
  unfold hLldpTlv lldpTlv
  refine ref_ite (fun _ => ref_lldpName m c) (fun _ => ?_)
  by_cases h4 : t = 4
  · subst h4
    simp only [if_true, true_or]
    refine ref_congr (ref_strCopy m c.pos c.length (i := 2) (by omega)) rfl (fun s => ?_)
    unfold lldpDescr
    cases tlvStrCopy m c.pos c.length <;> rfl
  · by_cases h6 : t = 6
    · subst h6
      exact ref_pure () sameMsg
    · have : ¬ (t = 4 ∨ t = 6) := by omega
      simp only [if_neg h4, if_neg h6, if_neg this]
      exact ref_ite (fun _ => ref_lldpCap m c) (fun _ => ref_ite (fun _ => ref_lldpMgmt m c) (fun _ =>
        ref_ite (fun _ => ref_lldpPrivate m c) (fun _ => ref_ite (fun _ => ref_fail) (fun _ => ref_pure () sameMsg))))

/-- Type, position and message. -/
def withType : Nat × Cur → Msg → Nat × Cur × Msg := fun x s => (x.1, x.2, s)

theorem ref_lldpLoop (m : Bytes) (fuel t0 : Nat) (c : Cur) :
    Ref (hLldpLoop m fuel t0 c) (fun s => lldpLoop m false fuel t0 c s) withType := by
  induction fuel generalizing t0 c with
  | zero => exact ref_stuck
  | succ fuel ih =>
    unfold hLldpLoop lldpLoop
    refine ref_ite (fun _ => ref_pure (t0, c) withType) (fun _ => ref_lift _ ?_)
    rintro ⟨t, l, c'⟩
    dsimp only
    refine ref_ite (fun _ => ref_fail) (fun _ => ref_ite (fun _ => ref_ite (fun _ => ref_fail) (fun _ =>
      ref_pure (t, c') withType)) (fun _ => ?_))
    refine ref_bind (ref_lldpTlv m t _) (fun _ => ?_)
    exact ref_lift _ (fun c'' => ih _ _)

theorem ref_lldpDecode (m : Bytes) (len : Nat) :
    Ref (hLldpDecode m len) (fun s => lldpDecode false m len s) withLen := by
  unfold hLldpDecode lldpDecode
  refine ref_lift _ (fun p => ref_lift _ ?_)
  rintro ⟨t, l, c⟩
  dsimp only
  refine ref_ite (fun _ => ref_fail) (fun _ => ref_ite (fun _ => ref_fail) (fun _ => ?_))
  refine ref_bind (ref_lldpChassis m _) (fun _ => ref_lift _ (fun c1 => ref_lift _ ?_))
  rintro ⟨t, l, c⟩
  dsimp only
  refine ref_ite (fun _ => ref_fail) (fun _ => ref_ite (fun _ => ref_fail) (fun _ => ?_))
  refine ref_bind (ref_lldpPort m _) (fun _ => ref_lift _ (fun c1 => ref_lift _ ?_))
  rintro ⟨t, l, c⟩
  dsimp only
  refine ref_ite (fun _ => ref_fail) (fun _ => ref_ite (fun _ => ref_fail) (fun _ => ref_lift _ ?_))
  rintro ⟨ttl, c⟩
  dsimp only
  refine ref_congr (ref_bind (kv := fun s => do
        let (t, c, s) ← lldpLoop m false (subSize len p + 1) t c s
        if t ≠ 0 then .fail
        else pure (s, c.pos)) (ref_ttl ttl) (fun _ => ?_)) rfl (fun s => rfl)
  refine ref_bind (ref_lldpLoop m _ _ _) ?_
  rintro ⟨t, c⟩
  exact ref_ite (fun _ => ref_fail) (fun _ => ref_pure c.pos withLen)

/-! ## EDP, FDP, NDP -/

theorem ref_valueStr (m : Bytes) (pos length : Nat) {i : Nat} (hi : i < 8) :
    Ref (hValueStr i m pos length)
      (fun s => match slotOf i s.peer with
        | some _ => .ok s
        | none => (rd m pos (min length TLV_STR_MAX)).bind
            (fun v => .ok { s with peer := keepFirst i (tlvValueStrVal v) s.peer })) sameMsg :=
  ref_fill _ _ hi

theorem valueStr_host (m : Bytes) (pos length : Nat) (s : Msg) :
    (match slotOf 0 s.peer with
        | some _ => .ok s
        | none => (rd m pos (min length TLV_STR_MAX)).bind
            (fun v => .ok { s with peer := keepFirst 0 (tlvValueStrVal v) s.peer })) =
      (tlvValueStr m pos length s.peer.hostname).bind (fun h => .ok { s with peer := { s.peer with hostname := h } }) := by
  unfold tlvValueStr
  cases hh : s.peer.hostname with
  | some v =>
    simp only [slotOf, hh, Res.bind_ok, Res.ok.injEq]
    rw [← hh]
  | none =>
    simp only [slotOf, hh, keepFirst, peerStr]
    cases rd m pos (min length TLV_STR_MAX) <;> rfl

theorem valueStr_port (m : Bytes) (pos length : Nat) (s : Msg) :
    (match slotOf 1 s.peer with
        | some _ => .ok s
        | none => (rd m pos (min length TLV_STR_MAX)).bind
            (fun v => .ok { s with peer := keepFirst 1 (tlvValueStrVal v) s.peer })) =
      (tlvValueStr m pos length s.peer.portname).bind (fun h => .ok { s with peer := { s.peer with portname := h } }) := by
  unfold tlvValueStr
  cases hh : s.peer.portname with
  | some v =>
    simp only [slotOf, hh, Res.bind_ok, Res.ok.injEq]
    rw [← hh]
  | none =>
    simp only [slotOf, hh, keepFirst, peerStr]
    cases rd m pos (min length TLV_STR_MAX) <;> rfl

theorem ref_host (m : Bytes) (pos length : Nat) :
    Ref (hValueStr 0 m pos length) (fun s => (tlvValueStr m pos length s.peer.hostname).bind
      (fun h => .ok { s with peer := { s.peer with hostname := h } })) sameMsg :=
  ref_congr (ref_valueStr m pos length (by omega)) rfl (valueStr_host m pos length)

theorem ref_port (m : Bytes) (pos length : Nat) :
    Ref (hValueStr 1 m pos length) (fun s => (tlvValueStr m pos length s.peer.portname).bind
      (fun h => .ok { s with peer := { s.peer with portname := h } })) sameMsg :=
  ref_congr (ref_valueStr m pos length (by omega)) rfl (valueStr_port m pos length)

theorem ref_edpLoop (m : Bytes) (fuel : Nat) (c : Cur) :
    Ref (hEdpLoop m fuel c) (fun s => edpLoop m fuel c s) withCur := by
  induction fuel generalizing c with
  | zero => exact ref_stuck
  | succ fuel ih =>
    unfold hEdpLoop edpLoop
    refine ref_ite (fun _ => ref_pure c withCur) (fun _ => ref_lift _ ?_)
    rintro ⟨t, l, c'⟩
    dsimp only
    refine ref_ite (fun _ => ref_ite (fun _ => ?_) (fun _ => ref_fail)) (fun _ => ref_lift _ (fun c'' => ih _))
    refine ref_congr (ref_bind (kv := fun s => skip l c' >>= fun c => edpLoop m fuel c s) (ref_host m c'.pos l)
      (fun _ => ref_lift _ (fun c'' => ih _))) rfl (fun s => ?_)
    cases tlvValueStr m c'.pos l s.peer.hostname <;> rfl

theorem ref_edpDecode (m : Bytes) (len : Nat) : Ref (hEdpDecode m len) (fun s => edpDecode m len s) withLen := by
  unfold hEdpDecode edpDecode
  refine ref_lift _ (fun p => ref_ite (fun _ => ref_fail) (fun _ => ref_lift _ (fun h => ref_ite (fun _ => ref_fail)
    (fun _ => ?_))))
  refine ref_congr (ref_bind (kv := fun s => do
      let (c, s) ← edpLoop m (subSize len p + 1) ⟨p + 16, subSize len p - 16⟩ s
      pure (s, c.pos)) (ref_ttl LADVD_TTL) (fun _ => ?_)) rfl (fun s => rfl)
  exact ref_bind (ref_edpLoop m _ _) (fun c => ref_pure c.pos withLen)

theorem ref_valueCap (cap : Nat) :
    Ref (hValueCap cap) (fun s => .ok { s with peer := keepFirst 3 (tlvStrCap cap) s.peer }) sameMsg := by
  refine ref_congr (ref_fill (.ok []) (fun _ => tlvStrCap cap) (i := 3) (by omega)) ?_ (fun s => ?_)
  · unfold hValueCap
    congr 1
  · cases hs : slotOf 3 s.peer with
    | some v => rw [keepFirst_some _ hs]
    | none => rfl

/-- A temporary block that is released before the rest. -/
theorem ref_temp {γ δ : Type} (b : Bytes) {x : HM Unit} {v : Msg → Msg} (h : Ref x (fun s => .ok (v s)) sameMsg)
    {k : HM γ} {kv : Msg → Res δ} {g : γ → Msg → δ} (hk : Ref k kv g) :
    Ref (hMalloc b >>= fun p => x >>= fun _ => hFree p >>= fun _ => k) (fun s => kv (v s)) g := by
  intro base s ho
  obtain ⟨ho', hv, hb⟩ := own_malloc ho b
  show Agrees base g (HM.bind x (fun _ => hFree s.heap.next >>= fun _ => k) { s with heap := (s.heap.malloc b).2 })
    (kv (v (msgTexts s)))
  rw [← hv]
  generalize { s with heap := (s.heap.malloc b).2 } = s1 at ho' ⊢
  generalize s.heap.next = q at ho' hb ⊢
  have hx := h _ s1 ho'
  unfold HM.bind
  cases hxs : x s1 with
  | ok a s2 =>
    rw [hxs] at hx
    obtain ⟨hx1, hx2⟩ := hx
    obtain ⟨s3, hf, ho3, hv3, -⟩ := own_free hb hx2
    show Agrees base g (HM.bind (hFree q) (fun _ => k) s2) _
    unfold HM.bind
    rw [hf, Res.ok.inj hx1]
    show Agrees base g (k s3) (kv (msgTexts s2))
    rw [← hv3]
    exact hk base s3 ho3
  | fail s2 => rw [hxs] at hx; exact absurd hx.1 (by simp)
  | oob => rw [hxs] at hx; exact absurd hx (by simp [Agrees])
  | abort => rw [hxs] at hx; exact absurd hx (by simp [Agrees])
  | stuck => rw [hxs] at hx; exact absurd hx (by simp [Agrees])

theorem ref_fdpLoop (m : Bytes) (fuel : Nat) (c : Cur) (cap : Nat) :
    Ref (hFdpLoop m fuel c cap) (fun s => fdpLoop m fuel c cap s) withCur := by
  induction fuel generalizing c cap with
  | zero => exact ref_stuck
  | succ fuel ih =>
    unfold hFdpLoop fdpLoop
    refine ref_ite (fun _ => ref_pure c withCur) (fun _ => ref_lift _ ?_)
    rintro ⟨t, l, c'⟩
    dsimp only
    refine ref_ite (fun _ => ref_ite (fun _ => ?_) (fun _ => ref_fail)) (fun _ => ref_ite (fun _ => ref_ite (fun _ => ?_)
      (fun _ => ref_fail)) (fun _ => ref_ite (fun _ => ref_lift _ ?_) (fun _ => ref_lift _ (fun c'' => ih _ _))))
    · refine ref_congr (ref_bind (kv := fun s => skip l c' >>= fun c => fdpLoop m fuel c cap s) (ref_host m c'.pos l)
        (fun _ => ref_lift _ (fun c'' => ih _ _))) rfl (fun s => ?_)
      cases tlvValueStr m c'.pos l s.peer.hostname <;> rfl
    · refine ref_congr (ref_bind (kv := fun s => skip l c' >>= fun c => fdpLoop m fuel c cap s) (ref_port m c'.pos l)
        (fun _ => ref_lift _ (fun c'' => ih _ _))) rfl (fun s => ?_)
      cases tlvValueStr m c'.pos l s.peer.portname <;> rfl
    · rintro ⟨v, c''⟩
      dsimp only
      exact ref_temp v (ref_valueCap _) (ih _ _)

theorem ref_fdpDecode (m : Bytes) (len : Nat) : Ref (hFdpDecode m len) (fun s => fdpDecode m len s) withLen := by
  unfold hFdpDecode fdpDecode
  refine ref_lift _ (fun p => ref_ite (fun _ => ref_fail) (fun _ => ref_lift _ (fun h => ref_ite (fun _ => ref_fail)
    (fun _ => ?_))))
  refine ref_congr (ref_bind (kv := fun s => do
      let (c, s) ← fdpLoop m (subSize len p + 1) ⟨p + 4, subSize len p - 4⟩ 0 s
      pure (s, c.pos)) (ref_ttl _) (fun _ => ?_)) rfl (fun s => rfl)
  exact ref_bind (ref_fdpLoop m _ _ _) (fun c => ref_pure c.pos withLen)

theorem ref_ndpDecode (m : Bytes) (len : Nat) : Ref (hNdpDecode m len) (fun s => ndpDecode m len s) withLen := by
  unfold hNdpDecode ndpDecode
  refine ref_lift _ (fun p => ref_ite (fun _ => ref_fail) (fun _ => ?_))
  exact ref_congr (ref_bind (kv := fun s => .ok (s, p + 11)) (ref_ttl LADVD_TTL) (fun _ => ref_pure (p + 11) withLen))
    rfl (fun s => rfl)

/-- All decoders. -/
theorem ref_decode (p : Proto) (m : Bytes) (len : Nat) :
    Ref (p.hDecode m len) (fun s => p.decode false m len s) withLen := by
  cases p
  · exact ref_lldpDecode m len
  · exact ref_cdpDecode m len
  · exact ref_edpDecode m len
  · exact ref_fdpDecode m len
  · exact ref_ndpDecode m len
  · exact ref_cdpDecode m len

end Ladvd
