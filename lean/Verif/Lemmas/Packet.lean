import Verif.Lemmas.Emit
import Verif.Lemmas.Netif
import Verif.Lemmas.Chksum
/-!
# The bytes the builders produce
-/

namespace Ladvd

open Spec

/-! ## Model helpers against the specification -/

theorem par_eq (e : PktEnv) : e.par = carrier e := by
  unfold PktEnv.par carrier; cases e.parent <;> rfl

theorem mgmt_eq (e : PktEnv) : e.mnetif.getD e.par = manager e := by
  unfold manager; rw [par_eq]; cases e.mnetif <;> rfl

theorem chassis_eq (e : PktEnv) : e.chassis = chassisAddr e := rfl

theorem carrier_ok {e : PktEnv} (h : EnvOk e) : NetifOk (carrier e) := by
  unfold carrier
  cases hp : e.parent with
  | none => exact h.1
  | some p => exact h.2.1 p (by simp [hp])

theorem manager_ok {e : PktEnv} (h : EnvOk e) : NetifOk (manager e) := by
  unfold manager
  cases hp : e.mnetif with
  | none => exact carrier_ok h
  | some p => exact h.2.2.1 p (by simp [hp])

theorem not_configured_iff (a : Bytes) : ¬ configured a ↔ a = List.replicate a.length 0 := by
  rw [List.eq_replicate_iff]
  unfold configured
  simp

theorem has4_iff {n : Netif} (h : n.ipaddr4.length = 4) : n.has4 = decide (configured n.ipaddr4) := by
  have := not_configured_iff n.ipaddr4
  rw [h] at this
  unfold Netif.has4
  by_cases hc : configured n.ipaddr4
  · rw [decide_eq_true hc]
    simp only [bne_iff_ne, ne_eq]
    intro h1; exact this.mpr h1 hc
  · rw [decide_eq_false hc, this.mp hc]; rfl

theorem has6_iff {n : Netif} (h : n.ipaddr6.length = 16) : n.has6 = decide (configured n.ipaddr6) := by
  have := not_configured_iff n.ipaddr6
  rw [h] at this
  unfold Netif.has6
  by_cases hc : configured n.ipaddr6
  · rw [decide_eq_true hc]
    simp only [bne_iff_ne, ne_eq]
    intro h1; exact this.mpr h1 hc
  · rw [decide_eq_false hc, this.mp hc]; rfl

theorem u8_ofInt (i : Int) : UInt8.ofNat (u8 i) = UInt8.ofInt i := rfl

theorem cdpCapVal_eq (c : Nat) : cdpCapVal c = cdpCapBits c := by
  unfold cdpCapVal cdpCapBits
  cases c.testBit 1 <;> cases c.testBit 3 <;> cases c.testBit 4 <;> rfl

theorem lldpCapBits_eq (c : Nat) : lldpCapBits c = lldpCapWord c := by
  unfold lldpCapBits lldpCapWord
  cases c.testBit 1 <;> cases c.testBit 3 <;> cases c.testBit 4 <;> cases c.testBit 5 <;> rfl

theorem fdpCapStr_eq (c : Nat) : fdpCapStr c = fdpCapName c := by
  unfold fdpCapStr fdpCapName
  cases c.testBit 1 <;> cases c.testBit 3 <;> cases c.testBit 4 <;> decide

theorem descr_eq (e : PktEnv) : e.descr = portDescr e := by
  unfold PktEnv.descr portDescr
  rw [par_eq]
  show (if e.opts.testBit 11 then _ else _) = _
  split
  · rfl
  · cases h1 : e.nif.description with
    | cons a r => simp
    | nil =>
      cases h2 : (carrier e).description with
      | cons a r => simp
      | nil => simp

/-! ## TLV sequences -/

theorem cdpEnc_append (a b : List Tlv) : cdpEnc (a ++ b) = cdpEnc a ++ cdpEnc b := by simp [cdpEnc]
theorem lldpEnc_append' (a b : List Tlv) : lldpEnc (a ++ b) = lldpEnc a ++ lldpEnc b := by simp [lldpEnc]

theorem emits_cdpSeq {f g : W → Res W} {a b : List Tlv} (hf : Emits f (cdpEnc a)) (hg : Emits g (cdpEnc b)) :
    Emits (f ⋙ g) (cdpEnc (a ++ b)) := by
  rw [cdpEnc_append]; exact emits_seq hf hg

theorem emits_cdp1 {t : Nat} {f : W → Res W} {v : Bytes} (hf : Emits f v) : Emits (cdpTlvW t f) (cdpEnc [(t, v)]) := by
  have : cdpEnc [(t, v)] = cdpEnc1 (t, v) := by simp [cdpEnc]
  rw [this]; exact emits_cdpTlv hf

theorem emits_whenP {b : Bool} {p : Prop} [Decidable p] {f : W → Res W} {a : Bytes} (hb : b = decide p)
    (hf : Emits f a) : Emits (whenW b f) (if p then a else []) := by
  have := emits_when (b := b) hf
  subst hb
  simpa using this

theorem emits_cdpWhen {b : Bool} {p : Prop} [Decidable p] {f : W → Res W} {a : List Tlv} (hb : b = decide p)
    (hf : p → Emits f (cdpEnc a)) : Emits (whenW b f) (cdpEnc (if p then a else [])) := by
  subst hb
  by_cases hp : p
  · rw [if_pos hp]; simpa [whenW, hp] using hf hp
  · rw [if_neg hp]; simpa [whenW, hp, cdpEnc] using emits_nop

theorem emits_cdpUnless {b : Bool} {p : Prop} [Decidable p] {f : W → Res W} {a : List Tlv} (hb : b = !decide p)
    (hf : Emits f (cdpEnc a)) : Emits (whenW b f) (cdpEnc (if p then [] else a)) := by
  subst hb
  by_cases hp : p
  · rw [if_pos hp]; simpa [whenW, hp, cdpEnc] using emits_nop
  · rw [if_neg hp]; simpa [whenW, hp] using hf

theorem emits_addr (pt : Nat) (protocol addr : Bytes) :
    Emits (addrW pt protocol addr)
      ([UInt8.ofNat pt, UInt8.ofNat protocol.length] ++ protocol ++ be16 addr.length ++ addr) := by
  refine (emits_seq (emits_push8 _) (emits_seq (emits_push8 _) (emits_seq (emits_push _)
    (emits_seq (emits_push16 _) (emits_push _))))).cast ?_
  simp

theorem emits_addrs (t : Nat) (n : Netif) (h : NetifOk n) : Emits (addrsW t n) (cdpEnc (addrTlv t n)) := by
  have h4 : n.ipaddr4.length = 4 := h.2.2.2.2.2.2.1
  have h6 : n.ipaddr6.length = 16 := h.2.2.2.2.2.2.2.1
  unfold addrsW addrTlv
  simp only [has4_iff h4, has6_iff h6]
  have e4 := emits_addr 1 [0xcc] n.ipaddr4
  have e6 := emits_addr 2 [0xaa, 0xaa, 0x03, 0x00, 0x00, 0x00, 0x86, 0xdd] n.ipaddr6
  rw [h4] at e4
  rw [h6] at e6
  have b4 : be16 4 = [0, 4] := by decide
  have b6 : be16 16 = [0, 16] := by decide
  rw [b4] at e4
  rw [b6] at e6
  by_cases c4 : configured n.ipaddr4 <;> by_cases c6 : configured n.ipaddr6
  · simp only [c4, c6, decide_true, if_true, whenW]
    refine (emits_cdp1 (emits_seq (emits_push32 _) (emits_seq e4 e6))).cast ?_
    simp
  · simp only [c4, c6, decide_true, decide_false, if_true, if_false, whenW]
    refine (emits_cdp1 (emits_seq (emits_push32 _) (emits_seq e4 emits_nop))).cast ?_
    simp
  · simp only [c4, c6, decide_true, decide_false, if_true, if_false, whenW]
    refine (emits_cdp1 (emits_seq (emits_push32 _) (emits_seq emits_nop e6))).cast ?_
    simp
  · simp only [c4, c6, decide_false, if_false, whenW]
    exact emits_nop

theorem emits_cdpBody (e : PktEnv) (h : EnvOk e) : Emits (cdpBody e) (cdpEnc (cdpAdvert e)) := by
  unfold cdpBody
  rw [par_eq, cdpCapVal_eq]
  have hm : Emits (match e.mnetif with | none => nopW | some m => addrsW 0x16 m)
      (cdpEnc (mgmtAddrs e)) := by
    unfold mgmtAddrs
    cases hp : e.mnetif with
    | none => exact emits_nop
    | some m => exact emits_addrs _ _ (h.2.2.1 m (by simp [hp]))
  have hmtu : Emits (whenW (e.nif.mtu != 0) (cdpTlvW 0x11 (push32 e.nif.mtu)))
      (cdpEnc (if e.nif.mtu = 0 then [] else [(0x11, be32 e.nif.mtu)])) :=
    emits_cdpUnless (by simp [bne, BEq.beq, decide]) (emits_cdp1 (emits_push32 _))
  have hdup : Emits (whenW (e.nif.duplex != -1) (cdpTlvW 0x0b (push8 (u8 e.nif.duplex))))
      (cdpEnc (if e.nif.duplex = -1 then [] else [(0x0b, [UInt8.ofInt e.nif.duplex])])) :=
    emits_cdpUnless (by simp [bne, BEq.beq, decide]) (emits_cdp1 (emits_push8 _))
  have hloc : Emits (whenW (e.sys.location != []) (cdpTlvW 0x17 (push8 0 ⋙ push e.sys.location)))
      (cdpEnc (if e.sys.location = [] then [] else [(0x17, 0 :: e.sys.location)])) :=
    emits_cdpUnless (by cases e.sys.location <;> rfl) (emits_cdp1 (emits_seq (emits_push8 0) (emits_push _)))
  refine Emits.cast (emits_cdpSeq (emits_cdp1 (emits_push _)) (emits_cdpSeq (emits_cdp1 (emits_push _))
    (emits_cdpSeq (emits_cdp1 (emits_push _)) (emits_cdpSeq (emits_cdp1 (emits_push _))
    (emits_cdpSeq (emits_cdp1 (emits_push32 _)) (emits_cdpSeq (emits_addrs _ _ (carrier_ok h))
    (emits_cdpSeq hm (emits_cdpSeq hmtu (emits_cdpSeq hdup (emits_cdpSeq hloc (emits_cdp1 (emits_push _)))))))))))) ?_
  congr 1
  simp only [cdpAdvert, List.append_assoc, List.cons_append, List.nil_append]

theorem emits_fdpBody (e : PktEnv) (h : EnvOk e) : Emits (fdpBody e) (cdpEnc (fdpAdvert e)) := by
  unfold fdpBody
  rw [mgmt_eq, fdpCapStr_eq]
  refine Emits.cast (emits_cdpSeq (emits_cdp1 (emits_push _)) (emits_cdpSeq (emits_cdp1 (emits_push _))
    (emits_cdpSeq (emits_cdp1 (emits_push _)) (emits_cdpSeq (emits_cdp1 (emits_push _))
    (emits_cdpSeq (emits_cdp1 (emits_push _)) (emits_addrs _ _ (manager_ok h))))))) ?_
  congr 1

/-! ## VLAN interfaces -/

theorem vlan_filter (e : PktEnv) :
    (netifTraverse e.opts e.netifs).filter (fun v =>
      v.type == NETIF_VLAN && (v.vlanParent == e.nif.index || v.vlanParent == e.par.index)) = vlansOf e := by
  rw [netifTraverse_eq, List.filter_filter, par_eq]
  unfold vlansOf
  apply List.filter_congr
  intro v _
  unfold netifSkip inScope
  by_cases ht : v.type = -1
  · have h1 : (v.type == NETIF_VLAN) = true := by rw [ht]; rfl
    have h2 : decide (v.type > NETIF_PARENT) = false := by rw [ht]; rfl
    rw [h1, h2]
    simp only [ht, Opts.has, OPT_ARGV]
    cases e.opts.testBit 5 <;> by_cases h3 : v.child = 0 <;> by_cases h4 : v.argv = 0 <;>
      by_cases h5 : v.vlanParent = e.nif.index <;> by_cases h6 : v.vlanParent = (carrier e).index <;>
      simp [h3, h4, h5, h6]
  · have h1 : (v.type == NETIF_VLAN) = false := by
      simp only [NETIF_VLAN, beq_eq_false_iff_ne, ne_eq]; exact ht
    rw [h1]; simp [ht]

theorem foldr_when {α : Type} (l : List α) (p : α → Bool) (f : α → W → Res W) :
    l.foldr (fun a k => whenW (p a) (f a) ⋙ k) nopW = (l.filter p).foldr (fun a k => f a ⋙ k) nopW := by
  induction l with
  | nil => rfl
  | cons a l ih =>
    simp only [List.foldr_cons, List.filter_cons]
    rw [ih]
    cases p a
    · simp only [whenW, Bool.false_eq_true, if_false]; rfl
    · simp only [whenW, if_true, List.foldr_cons]

theorem emits_vlan (e : PktEnv) {f : Netif → W → Res W} {g : Netif → Bytes}
    (h : ∀ v ∈ vlansOf e, Emits (f v) (g v)) : Emits (vlanW e f) ((vlansOf e).flatMap g) := by
  unfold vlanW
  rw [foldr_when (netifTraverse e.opts e.netifs) (fun v =>
    v.type == NETIF_VLAN && (v.vlanParent == e.nif.index || v.vlanParent == e.par.index)) f, vlan_filter]
  exact emits_foldr _ h

theorem vlansOf_ok {e : PktEnv} (h : EnvOk e) : ∀ v ∈ vlansOf e, NetifOk v := by
  intro v hv
  exact h.2.2.2.1 v (List.mem_filter.mp hv).1

/-! ## EDP -/

/-- The EDP TLVs with the marker byte the builder uses. -/
def marked (ts : List Tlv) : List (UInt8 × Tlv) := ts.map (fun t => (0x99, t))

theorem edpEnc_marked (a b : List Tlv) : edpEnc (marked (a ++ b)) = edpEnc (marked a) ++ edpEnc (marked b) := by
  simp [edpEnc, marked]

theorem emits_edpSeq {f g : W → Res W} {a b : List Tlv} (hf : Emits f (edpEnc (marked a)))
    (hg : Emits g (edpEnc (marked b))) : Emits (f ⋙ g) (edpEnc (marked (a ++ b))) := by
  rw [edpEnc_marked]; exact emits_seq hf hg

theorem emits_edp1 {t : Nat} {f : W → Res W} {v : Bytes} (hf : Emits f v) :
    Emits (edpTlvW t f) (edpEnc (marked [(t, v)])) := by
  have : edpEnc (marked [(t, v)]) = edpEnc1 0x99 (t, v) := by simp [edpEnc, marked]
  rw [this]; exact emits_edpTlv hf

theorem be16_zero : be16 0 = [0, 0] := by decide
theorem be32_zero : be32 0 = [0, 0, 0, 0] := by decide
theorem be16_ffff : be16 0xffff = [0xff, 0xff] := by decide

theorem emits_edpBody (e : PktEnv) (h : EnvOk e) : Emits (edpBody e) (edpEnc (marked (edpAdvert e))) := by
  unfold edpBody
  have h4 : (carrier e).ipaddr4.length = 4 := (carrier_ok h).2.2.2.2.2.2.1
  have hip : Emits (whenW e.par.has4 (edpTlvW 5 (push8 128 ⋙ push8 0 ⋙ push16 0 ⋙ push32 0 ⋙ push e.par.ipaddr4 ⋙
      push e.nif.name ⋙ push8 0))) (edpEnc (marked (if configured (carrier e).ipaddr4 then
        [(5, [0x80, 0, 0, 0, 0, 0, 0, 0] ++ (carrier e).ipaddr4 ++ e.nif.name ++ [0])] else []))) := by
    rw [par_eq, has4_iff h4]
    by_cases hc : configured (carrier e).ipaddr4
    · rw [if_pos hc, decide_eq_true hc]
      refine (emits_edp1 (emits_seq (emits_push8 _) (emits_seq (emits_push8 _) (emits_seq (emits_push16 _)
        (emits_seq (emits_push32 _) (emits_seq (emits_push _) (emits_seq (emits_push _) (emits_push8 _)))))))).cast ?_
      rw [be16_zero, be32_zero]
      congr 3
      simp
    · rw [if_neg hc, decide_eq_false hc]; exact emits_nop
  have hvl : Emits (vlanW e (fun v => edpTlvW 5 (push8 (if v.has4 then 128 else 0) ⋙ push8 0 ⋙ push16 v.vlanId ⋙
      push32 0 ⋙ push v.ipaddr4 ⋙ push e.nif.name)))
      (edpEnc (marked ((vlansOf e).map (fun v => (5, [(if configured v.ipaddr4 then 0x80 else 0), 0] ++ be16 v.vlanId ++
        [0, 0, 0, 0] ++ v.ipaddr4 ++ e.nif.name))))) := by
    refine (emits_vlan e (fun v hv => emits_edp1 (emits_seq (emits_push8 _) (emits_seq (emits_push8 _)
      (emits_seq (emits_push16 _) (emits_seq (emits_push32 _) (emits_seq (emits_push _) (emits_push _)))))))).cast ?_
    simp only [edpEnc, marked, List.flatMap_map, List.map_map]
    apply congrArg List.flatten
    apply List.map_congr_left
    intro v hv
    rw [be32_zero, has4_iff (vlansOf_ok h v hv).2.2.2.2.2.2.1]
    simp only [List.flatMap_cons, List.flatMap_nil, List.append_nil, Function.comp]
    congr 2
    by_cases hc : configured v.ipaddr4
    · simp [hc]
    · simp [hc]
  refine Emits.cast (emits_edpSeq (emits_edp1 (emits_push _)) (emits_edpSeq (emits_edp1
    (emits_seq (emits_push16 _) (emits_seq (emits_push16 _) (emits_seq (emits_push16 _) (emits_seq (emits_push32 _)
    (emits_seq (emits_push16 _) (emits_seq (emits_push _) (emits_seq (emits_push8 _) (emits_seq (emits_push16 _)
    (emits_seq (emits_push16 _) (emits_seq (emits_push32 _) (emits_seq (emits_push32 _) (emits_push32 _)))))))))))))
    (emits_edpSeq hip (emits_edpSeq hvl (emits_edp1 emits_nop))))) ?_
  rw [be16_zero, be32_zero, be16_ffff]
  congr 2
  simp only [edpAdvert, List.append_assoc, List.cons_append, List.nil_append]
  rfl

/-! ## LLDP -/

theorem emits_lldpSeq {f g : W → Res W} {a b : List Tlv} (hf : Emits f (lldpEnc a)) (hg : Emits g (lldpEnc b)) :
    Emits (f ⋙ g) (lldpEnc (a ++ b)) := by
  rw [lldpEnc_append']; exact emits_seq hf hg

theorem emits_lldp1 {t : Nat} {f : W → Res W} {v v' : Bytes} (hf : Emits f v') (ht : t < 128) (e : v' = v)
    (hv : v.length < 512) : Emits (lldpTlvW t f) (lldpEnc [(t, v)]) := by
  have : lldpEnc [(t, v)] = lldpEnc1 (t, v) := by simp [lldpEnc]
  subst e
  rw [this]; exact emits_lldpTlv hf ht hv

theorem emits_lldpWhen {b : Bool} {p : Prop} [Decidable p] {f : W → Res W} {a : List Tlv} (hb : b = decide p)
    (hf : Emits f (lldpEnc a)) : Emits (whenW b f) (lldpEnc (if p then a else [])) := by
  subst hb
  by_cases hp : p
  · rw [if_pos hp]; simpa [whenW, hp] using hf
  · rw [if_neg hp]; simpa [whenW, hp, lldpEnc] using emits_nop

theorem emits_lldpUnless {b : Bool} {p : Prop} [Decidable p] {f : W → Res W} {a : List Tlv} (hb : b = !decide p)
    (hf : Emits f (lldpEnc a)) : Emits (whenW b f) (lldpEnc (if p then [] else a)) := by
  subst hb
  by_cases hp : p
  · rw [if_pos hp]; simpa [whenW, hp, lldpEnc] using emits_nop
  · rw [if_neg hp]; simpa [whenW, hp] using hf

theorem emits_mgmt (fam : Nat) (a : Bytes) (index : Nat) (ha : a.length ≤ 16) :
    Emits (lldpMgmtW fam a index) (lldpEnc [mgmtTlv (UInt8.ofNat fam) a index]) := by
  refine emits_lldp1 (emits_seq (emits_push8 _) (emits_seq (emits_push8 _) (emits_seq (emits_push _)
    (emits_seq (emits_push8 _) (emits_seq (emits_push32 _) (emits_push8 _)))))) (by omega) ?_ ?_
  · rw [Nat.add_comm 1]; simp
  · simp; omega

theorem emits_hinv (sub : Nat) (v : Bytes) (h : cText 32 v) :
    Emits (hinvW sub v) (lldpEnc (inventory (UInt8.ofNat sub) v)) := by
  have := h.1
  refine emits_lldpUnless ?_ (emits_lldp1 (emits_seq (emits_push _) (emits_seq (emits_push8 _) (emits_push _)))
    (by omega) ?_ ?_)
  · cases v <;> simp
  · simp
  · simp; omega

theorem portDescr_le {e : PktEnv} (h : EnvOk e) : cText 63 (portDescr e) := by
  unfold portDescr
  split
  · exact h.1.2.2.2.2.1
  · cases h1 : e.nif.description with
    | cons a r => simp only [ne_eq, reduceCtorEq, not_false_eq_true, decide_true, List.filter_cons_of_pos, List.headD_cons]
                  rw [← h1]; exact h.1.2.2.2.1
    | nil =>
      cases h2 : (carrier e).description with
      | cons a r => simp; rw [← h2]; exact (carrier_ok h).2.2.2.1
      | nil => simp; exact h.1.2.2.2.2.1

theorem chassisAddr_length {e : PktEnv} (h : EnvOk e) : (chassisAddr e).length = 6 := by
  unfold chassisAddr
  split
  · exact h.1.2.2.2.2.2.1
  · exact h.2.2.2.2.2.2.2.2.2.2.1

theorem emits_lldpBody (e : PktEnv) (h : EnvOk e) : Emits (lldpBody e) (lldpEnc (lldpTlvs e)) := by
  have hs := h.2.2.2.2
  obtain ⟨hh, hu, hp, hl, hc, hr, hw, hcap, hact, hmed, i1, i2, i3, i4, i5, i6, i7⟩ := hs
  have hm := manager_ok h
  have h4 : (manager e).ipaddr4.length = 4 := hm.2.2.2.2.2.2.1
  have h6 : (manager e).ipaddr6.length = 16 := hm.2.2.2.2.2.2.2.1
  have hw6 : (manager e).hwaddr.length = 6 := hm.2.2.2.2.2.1
  unfold lldpBody
  simp only [mgmt_eq, has4_iff h4, has6_iff h6, descr_eq]
  have a1 : Emits (lldpTlvW 1 (push8 4 ⋙ push e.chassis)) (lldpEnc [(1, 4 :: chassisAddr e)]) :=
    emits_lldp1 (emits_seq (emits_push8 _) (emits_push _)) (by omega) rfl
      (by simp only [List.length_cons, chassisAddr_length h]; omega)
  have a2 : Emits (lldpTlvW 2 (push8 5 ⋙ push e.nif.name)) (lldpEnc [(2, 5 :: e.nif.name)]) :=
    emits_lldp1 (emits_seq (emits_push8 _) (emits_push _)) (by omega) rfl
      (by have := h.1.2.1.1; simp only [List.length_cons]; omega)
  have a3 : Emits (lldpTlvW 3 (push16 LADVD_TTL)) (lldpEnc [(3, [0, 180])]) :=
    emits_lldp1 (emits_push16 _) (by omega) (by decide) (by simp)
  have a4 : Emits (whenW (decide ((portDescr e).length > 0)) (lldpTlvW 4 (push (portDescr e))))
      (lldpEnc (if portDescr e = [] then [] else [(4, portDescr e)])) := by
    refine emits_lldpUnless ?_ (emits_lldp1 (emits_push _) (by omega) rfl ?_)
    · cases portDescr e <;> simp
    · have := (portDescr_le h).1; omega
  have a5 : Emits (lldpTlvW 5 (push e.sys.hostname)) (lldpEnc [(5, e.sys.hostname)]) :=
    emits_lldp1 (emits_push _) (by omega) rfl (by have := hh.1; omega)
  have a6 : Emits (lldpTlvW 6 (push e.sys.utsStr)) (lldpEnc [(6, e.sys.utsStr)]) :=
    emits_lldp1 (emits_push _) (by omega) rfl (by have := hu.1; omega)
  have a7 : Emits (lldpTlvW 7 (push16 (lldpCapVals e.sys).1 ⋙ push16 (lldpCapVals e.sys).2))
      (lldpEnc [(7, lldpCapPair e.sys)]) := by
    refine emits_lldp1 (emits_seq (emits_push16 _) (emits_push16 _)) (by omega) ?_ ?_
    · unfold lldpCapVals lldpCapPair
      split
      · decide
      · simp only [lldpCapBits_eq]
    · unfold lldpCapPair; split <;> simp
  have a8 := emits_lldpWhen (p := configured (manager e).ipaddr4) (b := decide (configured (manager e).ipaddr4)) rfl
    (emits_mgmt 1 (manager e).ipaddr4 (manager e).index (by omega))
  have a9 := emits_lldpWhen (p := configured (manager e).ipaddr6) (b := decide (configured (manager e).ipaddr6)) rfl
    (emits_mgmt 2 (manager e).ipaddr6 (manager e).index (by omega))
  have a10 := emits_mgmt 6 (manager e).hwaddr (manager e).index (by omega)
  have a11 : Emits (vlanW e (fun v => lldpTlvW 127 (push [0x00, 0x80, 0xc2] ⋙ push8 3 ⋙ push16 v.vlanId ⋙
      push8 v.name.length ⋙ push v.name)))
      (lldpEnc ((vlansOf e).map (fun v => (127, [0x00, 0x80, 0xc2, 3] ++ be16 v.vlanId ++ [UInt8.ofNat v.name.length] ++ v.name)))) := by
    have e1 : ∀ l : List Netif, lldpEnc (l.map (fun v => (127, [0x00, 0x80, 0xc2, 3] ++ be16 v.vlanId ++ [UInt8.ofNat v.name.length] ++ v.name)))
        = l.flatMap (fun v => lldpEnc [(127, [0x00, 0x80, 0xc2, 3] ++ be16 v.vlanId ++ [UInt8.ofNat v.name.length] ++ v.name)]) := by
      intro l
      simp only [lldpEnc, List.flatMap_map, List.flatMap_cons, List.flatMap_nil, List.append_nil]
    rw [e1]
    apply emits_vlan
    intro v hv
    have := (vlansOf_ok h v hv).2.1.1
    refine emits_lldp1 (emits_seq (emits_push _) (emits_seq (emits_push8 _) (emits_seq (emits_push16 _)
      (emits_seq (emits_push8 _) (emits_push _))))) (by omega) ?_ ?_
    · simp
    · simp; omega
  have a12 : Emits (whenW (e.nif.autonegSupported != -1) (lldpTlvW 127 (push [0x00, 0x12, 0x0f] ⋙ push8 1 ⋙
      push8 (u8 (e.nif.autonegSupported + e.nif.autonegEnabled * 2)) ⋙ push16 e.nif.autonegPmd ⋙ push16 e.nif.mau)))
      (lldpEnc (if e.nif.autonegSupported = -1 then [] else
        [(127, [0x00, 0x12, 0x0f, 1, UInt8.ofInt (e.nif.autonegSupported + 2 * e.nif.autonegEnabled)] ++
          be16 e.nif.autonegPmd ++ be16 e.nif.mau)])) := by
    refine emits_lldpUnless (by simp [bne, BEq.beq, decide]) (emits_lldp1 (emits_seq (emits_push _) (emits_seq (emits_push8 _)
      (emits_seq (emits_push8 _) (emits_seq (emits_push16 _) (emits_push16 _))))) (by omega) ?_ ?_)
    · rw [u8_ofInt, Int.mul_comm]; simp
    · simp
  have a13 : Emits (whenW (e.par.bondingMode == 1) (lldpTlvW 127 (push [0x00, 0x12, 0x0f] ⋙ push8 3 ⋙ push8 3 ⋙
      push32 e.nif.lacpIndex)))
      (lldpEnc (if (carrier e).bondingMode = 1 then [(127, [0x00, 0x12, 0x0f, 3, 3] ++ be32 e.nif.lacpIndex)] else [])) := by
    rw [par_eq]
    refine emits_lldpWhen (by simp [BEq.beq, decide]) (emits_lldp1 (emits_seq (emits_push _) (emits_seq (emits_push8 _)
      (emits_seq (emits_push8 _) (emits_push32 _)))) (by omega) ?_ ?_)
    · simp
    · simp
  have a14 : Emits (whenW (e.nif.mtu != 0) (lldpTlvW 127 (push [0x00, 0x12, 0x0f] ⋙ push8 4 ⋙ push16 (e.nif.mtu + 22))))
      (lldpEnc (if e.nif.mtu = 0 then [] else [(127, [0x00, 0x12, 0x0f, 4] ++ be16 (e.nif.mtu + 22))])) := by
    refine emits_lldpUnless (by simp [bne, BEq.beq, decide]) (emits_lldp1 (emits_seq (emits_push _) (emits_seq (emits_push8 _)
      (emits_push16 _))) (by omega) ?_ ?_)
    · simp
    · simp
  have a15 : Emits (lldpTlvW 127 (push [0x00, 0x12, 0xbb] ⋙ push8 1 ⋙ push16 e.sys.capLldpmed ⋙ push8 (u8 e.sys.lldpmedDevtype)))
      (lldpEnc [(127, [0x00, 0x12, 0xbb, 1] ++ be16 e.sys.capLldpmed ++ [UInt8.ofInt e.sys.lldpmedDevtype])]) := by
    refine emits_lldp1 (emits_seq (emits_push _) (emits_seq (emits_push8 _) (emits_seq (emits_push16 _) (emits_push8 _))))
      (by omega) ?_ ?_
    · rw [u8_ofInt]; simp
    · simp
  have a16 : Emits (whenW (e.sys.country.length == 2 && e.sys.location.length != 0) (lldpTlvW 127 (push [0x00, 0x12, 0xbb] ⋙
      push8 3 ⋙ push8 2 ⋙ push8 (5 + e.sys.location.length) ⋙ push8 2 ⋙ push e.sys.country ⋙ push8 22 ⋙
      push8 e.sys.location.length ⋙ push e.sys.location)))
      (lldpEnc (if e.sys.country.length = 2 ∧ e.sys.location ≠ [] then
        [(127, [0x00, 0x12, 0xbb, 3, 2, UInt8.ofNat (5 + e.sys.location.length), 2] ++ e.sys.country ++
          [22, UInt8.ofNat e.sys.location.length] ++ e.sys.location)] else [])) := by
    refine emits_lldpWhen ?_ (emits_lldp1 (emits_seq (emits_push _) (emits_seq (emits_push8 _) (emits_seq (emits_push8 _)
      (emits_seq (emits_push8 _) (emits_seq (emits_push8 _) (emits_seq (emits_push _) (emits_seq (emits_push8 _)
      (emits_seq (emits_push8 _) (emits_push _))))))))) (by omega) ?_ ?_)
    · by_cases hx : e.sys.country.length = 2 <;> cases e.sys.location <;> simp [hx]
    · simp
    · have := hc.1; have := hl.1; simp; omega
  have a17 : Emits (lldpTlvW 0 nopW) (lldpEnc [(0, [])]) := emits_lldp1 emits_nop (by omega) rfl (by simp)
  refine Emits.cast (emits_lldpSeq a1 (emits_lldpSeq a2 (emits_lldpSeq a3 (emits_lldpSeq a4 (emits_lldpSeq a5
    (emits_lldpSeq a6 (emits_lldpSeq a7 (emits_lldpSeq a8 (emits_lldpSeq a9 (emits_lldpSeq a10 (emits_lldpSeq a11
    (emits_lldpSeq a12 (emits_lldpSeq a13 (emits_lldpSeq a14 (emits_lldpSeq a15 (emits_lldpSeq a16
    (emits_lldpSeq (emits_hinv 5 _ i1) (emits_lldpSeq (emits_hinv 6 _ i2) (emits_lldpSeq (emits_hinv 7 _ i3)
    (emits_lldpSeq (emits_hinv 8 _ i4) (emits_lldpSeq (emits_hinv 9 _ i5) (emits_lldpSeq (emits_hinv 10 _ i6)
    (emits_lldpSeq (emits_hinv 11 _ i7) a17))))))))))))))))))))))) ?_
  apply congrArg lldpEnc
  simp only [lldpTlvs, lldpAdvert, List.append_assoc, List.cons_append, List.nil_append]
  rfl

end Ladvd
