import Verif.Lemmas.Packet
/-!
# The frames the builders produce
-/

namespace Ladvd

open Spec

theorem put_before {m h v : Bytes} (hl : h.length + v.length ≤ m.length) :
    put (put m h.length v) 0 h = (h ++ v) ++ m.drop (h ++ v).length := by
  have e : put m h.length v = m.take h.length ++ (v ++ m.drop (h.length + v.length)) := by
    simp [put, List.append_assoc]
  have ht : (m.take h.length).length = h.length := by simp; omega
  rw [e]
  conv => lhs; rw [put]
  rw [Nat.zero_add]
  have : (m.take h.length ++ (v ++ m.drop (h.length + v.length))).drop h.length = v ++ m.drop (h.length + v.length) := by
    rw [List.drop_append, ht, List.drop_of_length_le (by omega)]; simp
  rw [this]
  simp [List.append_assoc]

/-- An LLC/SNAP frame. -/
def llcFrame (dst src org : Bytes) (pid : Nat) (payload : Bytes) : Bytes :=
  dst ++ src ++ be16 (8 + payload.length) ++ llcHdr org pid ++ payload

theorem llcHdr_length {org : Bytes} {pid : Nat} (h : org.length = 3) : (llcHdr org pid).length = 8 := by
  unfold llcHdr; simp; omega

theorem llcFrame_length {dst src org : Bytes} {pid : Nat} {payload : Bytes} (hd : dst.length = 6)
    (hs : src.length = 6) (ho : org.length = 3) : (llcFrame dst src org pid payload).length = 22 + payload.length := by
  unfold llcFrame; simp only [List.length_append, llcHdr_length ho, be16_length, hd, hs]

theorem llcPacket_eq {mem dst org : Bytes} {pid : Nat} {src hdr : Bytes} {body : W → Res W} {final : Bytes → Bytes}
    {bs : Bytes} (hb : Emits body bs) (hd : dst.length = 6) (ho : org.length = 3) (hs : src.length = 6)
    (hf : ∀ d, (final d).length = hdr.length) (hm : 1518 ≤ mem.length) (hh : 22 + hdr.length ≤ 1518) :
    llcPacket mem dst org pid src hdr body final =
      if 22 + hdr.length + bs.length ≤ 1518 then
        let f := llcFrame dst src org pid (final (hdr ++ bs) ++ bs)
        .ok (f ++ mem.drop f.length, f.length)
      else .fail := by
  have hll := llcHdr_length (pid := pid) ho
  unfold llcPacket
  rw [wr_put (by omega)]
  simp only [Res.bind_eq, Res.bind_ok]
  rw [wr_put (by rw [put_length (by omega)]; omega)]
  have e22 : (22 : Nat) = 14 + (llcHdr org pid).length := by omega
  have e1 : put (put mem 14 (llcHdr org pid)) 22 hdr = put mem 14 (llcHdr org pid ++ hdr) := by
    rw [e22]; exact put_put (by omega)
  rw [e1]
  simp only [Res.bind_ok]
  have hl1 : (put mem 14 (llcHdr org pid ++ hdr)).length = mem.length := put_length (by simp; omega)
  by_cases hfit : 22 + hdr.length + bs.length ≤ 1518
  · rw [hb.ok (by simp only [ETHER_MAX_LEN, hl1]; omega) (by simp only [ETHER_MAX_LEN]; omega), if_pos hfit]
    simp only [Res.bind_ok]
    have e2 : put (put mem 14 (llcHdr org pid ++ hdr)) (22 + hdr.length) bs
        = put mem 14 (llcHdr org pid ++ (hdr ++ bs) ++ []) := by
      have : 22 + hdr.length = 14 + (llcHdr org pid ++ hdr).length := by simp; omega
      rw [this, put_put (by simp; omega)]; simp
    rw [e2]
    have e3 : rd (put mem 14 (llcHdr org pid ++ (hdr ++ bs) ++ [])) 22 (22 + hdr.length + bs.length - 22) = .ok (hdr ++ bs) := by
      have h1 := rd_put (m := mem) (p := 14) (a := llcHdr org pid) (b := hdr ++ bs) (c := []) (by simp; omega)
      rw [← e22] at h1
      rw [← h1]; congr 1; simp; omega
    rw [e3]
    simp only [Res.bind_ok]
    have e4 : put mem 14 (llcHdr org pid ++ (hdr ++ bs) ++ []) = put mem 14 (llcHdr org pid ++ hdr ++ bs) := by simp
    rw [e4]
    have hf' := hf (hdr ++ bs)
    rw [wr_put (by rw [put_length (by simp; omega)]; omega)]
    have e5 : put (put mem 14 (llcHdr org pid ++ hdr ++ bs)) 22 (final (hdr ++ bs))
        = put mem 14 (llcHdr org pid ++ final (hdr ++ bs) ++ bs) := by
      rw [e22]; exact put_inside hf' (by omega)
    rw [e5]
    simp only [Res.bind_ok]
    have hl2 : (put mem 14 (llcHdr org pid ++ final (hdr ++ bs) ++ bs)).length = mem.length :=
      put_length (by simp; omega)
    rw [wr_put (by rw [hl2]; simp; omega)]
    simp only [Res.bind_ok, Res.pure_eq, Res.ok.injEq, Prod.mk.injEq]
    have hlen : (llcFrame dst src org pid (final (hdr ++ bs) ++ bs)).length = 22 + hdr.length + bs.length := by
      rw [llcFrame_length hd hs ho]; simp; omega
    refine ⟨?_, hlen.symm⟩
    have e14 : (14 : Nat) = (dst ++ src ++ be16 (22 + hdr.length + bs.length - 14)).length := by simp; omega
    conv => lhs; arg 1; rw [e14]
    rw [put_before (by simp; omega)]
    have e6 : llcFrame dst src org pid (final (hdr ++ bs) ++ bs) =
        dst ++ src ++ be16 (22 + hdr.length + bs.length - 14) ++ (llcHdr org pid ++ final (hdr ++ bs) ++ bs) := by
      unfold llcFrame
      have : 8 + (final (hdr ++ bs) ++ bs).length = 22 + hdr.length + bs.length - 14 := by simp; omega
      rw [this]
      simp [List.append_assoc]
    rw [e6]
  · rw [hb.fail (by simp only [ETHER_MAX_LEN, hl1]; omega) (by simp only [ETHER_MAX_LEN]; omega), if_neg hfit]; rfl

/-! ## The five builders -/

/-- CDP payload: version, lifetime, checksum, TLVs. -/
def cdpData (cdp1 : Bool) (e : PktEnv) : Bytes :=
  let ver : UInt8 := if cdp1 then 1 else 2
  [ver, 180] ++ le16 (myChksum ([ver, 180] ++ [0, 0] ++ cdpEnc (cdpAdvert e)) true) ++ cdpEnc (cdpAdvert e)

theorem cdpPacket_eq (cdp1 : Bool) (mem : Bytes) (e : PktEnv) (h : EnvOk e) (hm : 1518 ≤ mem.length) :
    cdpPacket cdp1 mem e =
      if 26 + (cdpEnc (cdpAdvert e)).length ≤ 1518 then
        let f := llcFrame [0x01, 0x00, 0x0c, 0xcc, 0xcc, 0xcc] e.nif.hwaddr [0x00, 0x00, 0x0c] 0x2000 (cdpData cdp1 e)
        .ok (f ++ mem.drop f.length, f.length)
      else .fail := by
  unfold cdpPacket
  have := llcPacket_eq (mem := mem) (dst := CDP_DST) (org := CDP_ORG) (pid := CDP_PID) (src := e.nif.hwaddr)
    (hdr := [if cdp1 then 1 else 2, UInt8.ofNat LADVD_TTL, 0, 0])
    (final := fun data => [if cdp1 then 1 else 2, UInt8.ofNat LADVD_TTL] ++ le16 (myChksum data true))
    (emits_cdpBody e h) rfl rfl h.1.2.2.2.2.2.1 (fun _ => rfl) hm (by simp)
  exact this

/-- FDP payload. -/
def fdpData (e : PktEnv) : Bytes :=
  [1, 180] ++ le16 (myChksum ([1, 180] ++ [0, 0] ++ cdpEnc (fdpAdvert e)) false) ++ cdpEnc (fdpAdvert e)

theorem fdpPacket_eq (mem : Bytes) (e : PktEnv) (h : EnvOk e) (hm : 1518 ≤ mem.length) :
    fdpPacket mem e =
      if 26 + (cdpEnc (fdpAdvert e)).length ≤ 1518 then
        let f := llcFrame [0x01, 0xe0, 0x52, 0xcc, 0xcc, 0xcc] e.nif.hwaddr [0x00, 0xe0, 0x52] 0x2000 (fdpData e)
        .ok (f ++ mem.drop f.length, f.length)
      else .fail := by
  unfold fdpPacket
  have := llcPacket_eq (mem := mem) (dst := FDP_DST) (org := FDP_ORG) (pid := FDP_PID) (src := e.nif.hwaddr)
    (hdr := [1, UInt8.ofNat LADVD_TTL, 0, 0])
    (final := fun data => [1, UInt8.ofNat LADVD_TTL] ++ le16 (myChksum data false))
    (emits_fdpBody e h) rfl rfl h.1.2.2.2.2.2.1 (fun _ => rfl) hm (by simp)
  exact this

theorem put_same {m : Bytes} {p : Nat} {v : Bytes} {n : Nat} (h : p + v.length + n ≤ m.length) :
    put m p (v ++ (m.drop (p + v.length)).take n) = put m p v := by
  have hl : ((m.drop (p + v.length)).take n).length = n := by simp; omega
  unfold put
  rw [List.length_append, hl, List.append_assoc, List.append_assoc, List.append_assoc, ← Nat.add_assoc,
    ← List.drop_drop (i := n), List.take_append_drop]

/-- EDP payload. -/
def edpData (e : PktEnv) (seq : Nat) : Bytes :=
  let tl := edpEnc (marked (edpAdvert e))
  let ck := myChksum ([1, 0] ++ be16 (16 + tl.length) ++ [0, 0] ++ be16 seq ++ [0, 0] ++ chassisAddr e ++ tl) false
  [1, 0] ++ be16 (16 + tl.length) ++ le16 ck ++ be16 seq ++ [0, 0] ++ chassisAddr e ++ tl

theorem edpPacket_eq (mem : Bytes) (e : PktEnv) (seq : Nat) (h : EnvOk e) (hm : 1518 ≤ mem.length) :
    edpPacket mem e seq =
      if 38 + (edpEnc (marked (edpAdvert e))).length ≤ 1518 then
        let f := llcFrame [0x00, 0xe0, 0x2b, 0x00, 0x00, 0x00] e.nif.hwaddr [0x00, 0xe0, 0x2b] 0x00bb (edpData e seq)
        .ok (f ++ mem.drop f.length, f.length)
      else .fail := by
  have hb := emits_edpBody e h
  have hch := chassisAddr_length h
  unfold edpPacket edpData
  rw [chassis_eq]
  generalize edpEnc (marked (edpAdvert e)) = bs at *
  have hs : e.nif.hwaddr.length = 6 := h.1.2.2.2.2.2.1
  have hd : EDP_DST.length = 6 := rfl
  have ho : EDP_ORG.length = 3 := rfl
  have hll : (llcHdr EDP_ORG EDP_PID).length = 8 := rfl
  rw [wr_put (by omega)]
  simp only [Res.bind_eq, Res.bind_ok]
  let old := (mem.drop 22).take 16
  have hold : old.length = 16 := by simp [old]; omega
  have e1 : put mem 14 (llcHdr EDP_ORG EDP_PID) = put mem 14 (llcHdr EDP_ORG EDP_PID ++ old) :=
    (put_same (m := mem) (p := 14) (v := llcHdr EDP_ORG EDP_PID) (n := 16) (by omega)).symm
  rw [e1]
  have hl1 : (put mem 14 (llcHdr EDP_ORG EDP_PID ++ old)).length = mem.length :=
    put_length (by simp only [List.length_append]; omega)
  have eh : ∀ ck, ck.length = 2 → (edpHdr (16 + bs.length) ck seq (chassisAddr e)).length = 16 := by
    intro ck hck; unfold edpHdr; simp only [List.length_append, List.length_cons, List.length_nil, be16_length]; omega
  by_cases hfit : 38 + bs.length ≤ 1518
  · rw [hb.ok (by simp only [ETHER_MAX_LEN, hl1]; omega) (by simp only [ETHER_MAX_LEN]; omega), if_pos hfit]
    simp only [Res.bind_ok]
    have e2 : put (put mem 14 (llcHdr EDP_ORG EDP_PID ++ old)) (22 + 16) bs
        = put mem 14 (llcHdr EDP_ORG EDP_PID ++ old ++ bs) := by
      have : 22 + 16 = 14 + (llcHdr EDP_ORG EDP_PID ++ old).length := by simp only [List.length_append]; omega
      rw [this, put_put (by simp only [List.length_append]; omega)]
    have el : 22 + 16 + bs.length - 22 = 16 + bs.length := by omega
    rw [e2, el]
    have eh0 := eh [0, 0] rfl
    rw [wr_put (by rw [put_length (by simp only [List.length_append]; omega)]; omega)]
    have e3 : ∀ (x y : Bytes), x.length = 16 → y.length = 16 →
        put (put mem 14 (llcHdr EDP_ORG EDP_PID ++ x ++ bs)) 22 y = put mem 14 (llcHdr EDP_ORG EDP_PID ++ y ++ bs) := by
      intro x y hx hy
      exact put_inside (p := 14) (a := llcHdr EDP_ORG EDP_PID) (by omega) (by omega)
    rw [e3 _ _ hold eh0]
    simp only [Res.bind_ok]
    have e4 : rd (put mem 14 (llcHdr EDP_ORG EDP_PID ++ edpHdr (16 + bs.length) [0, 0] seq (chassisAddr e) ++ bs)) 22
        (16 + bs.length) = .ok (edpHdr (16 + bs.length) [0, 0] seq (chassisAddr e) ++ bs) := by
      have h1 := rd_put (m := mem) (p := 14) (a := llcHdr EDP_ORG EDP_PID)
        (b := edpHdr (16 + bs.length) [0, 0] seq (chassisAddr e) ++ bs) (c := [])
        (by simp only [List.length_append, List.length_nil]; omega)
      rw [List.append_nil, ← List.append_assoc] at h1
      rw [← h1]; congr 1; simp only [List.length_append]; omega
    rw [e4]
    simp only [Res.bind_ok]
    have eh1 := eh (le16 (myChksum (edpHdr (16 + bs.length) [0, 0] seq (chassisAddr e) ++ bs) false)) rfl
    rw [wr_put (by rw [put_length (by simp only [List.length_append]; omega)]; omega), e3 _ _ eh0 eh1]
    simp only [Res.bind_ok]
    have hx : ∀ y : Bytes, y.length = 16 →
        wr (put mem 14 (llcHdr EDP_ORG EDP_PID ++ y ++ bs)) 0 (EDP_DST ++ e.nif.hwaddr ++ be16 (22 + 16 + bs.length - 14))
          = .ok (llcFrame EDP_DST e.nif.hwaddr EDP_ORG EDP_PID (y ++ bs) ++
              mem.drop (llcFrame EDP_DST e.nif.hwaddr EDP_ORG EDP_PID (y ++ bs)).length) := by
      intro y hy
      rw [wr_put (by rw [put_length (by simp only [List.length_append]; omega)]; simp only [List.length_append, be16_length]; omega)]
      have e14 : (14 : Nat) = (EDP_DST ++ e.nif.hwaddr ++ be16 (22 + 16 + bs.length - 14)).length := by
        simp only [List.length_append, be16_length]; omega
      have hpb := put_before (m := mem) (h := EDP_DST ++ e.nif.hwaddr ++ be16 (22 + 16 + bs.length - 14))
        (v := llcHdr EDP_ORG EDP_PID ++ y ++ bs) (by simp only [List.length_append, be16_length]; omega)
      rw [← e14] at hpb
      rw [hpb]
      have e6 : llcFrame EDP_DST e.nif.hwaddr EDP_ORG EDP_PID (y ++ bs) =
          EDP_DST ++ e.nif.hwaddr ++ be16 (22 + 16 + bs.length - 14) ++ (llcHdr EDP_ORG EDP_PID ++ y ++ bs) := by
        unfold llcFrame
        have : 8 + (y ++ bs).length = 22 + 16 + bs.length - 14 := by simp only [List.length_append]; omega
        rw [this]
        simp only [List.append_assoc]
      rw [e6]
    rw [hx _ eh1]
    simp only [Res.bind_ok, Res.pure_eq, Res.ok.injEq, Prod.mk.injEq]
    refine ⟨rfl, ?_⟩
    have := llcFrame_length (dst := EDP_DST) (src := e.nif.hwaddr) (org := EDP_ORG) (pid := EDP_PID)
      (payload := edpHdr (16 + bs.length) (le16 (myChksum (edpHdr (16 + bs.length) [0, 0] seq (chassisAddr e) ++ bs) false))
        seq (chassisAddr e) ++ bs) hd hs ho
    rw [List.length_append, eh1] at this
    refine Eq.trans ?_ this.symm
    omega
  · rw [hb.fail (by simp only [ETHER_MAX_LEN, hl1]; omega) (by simp only [ETHER_MAX_LEN]; omega), if_neg hfit]; rfl

/-- NDP payload. -/
def ndpData (e : PktEnv) : Bytes :=
  (carrier e).ipaddr4 ++ [0, 0, UInt8.ofNat e.nif.index, 1, 12, 3, UInt8.ofNat e.sys.physifCount] ++ List.replicate 31 0

theorem ndpPacket_eq (mem : Bytes) (e : PktEnv) (h : EnvOk e) (hm : 1518 ≤ mem.length) :
    ndpPacket mem e =
      let f := llcFrame [0x01, 0x00, 0x81, 0x00, 0x01, 0x00] e.nif.hwaddr [0x00, 0x00, 0x81] 0x01a2 (ndpData e)
      .ok (f ++ mem.drop f.length, 64) := by
  have hs : e.nif.hwaddr.length = 6 := h.1.2.2.2.2.2.1
  have h4 : (carrier e).ipaddr4.length = 4 := (carrier_ok h).2.2.2.2.2.2.1
  have hll : (llcHdr NDP_ORG NDP_PID).length = 8 := rfl
  have hd : NDP_DST.length = 6 := rfl
  unfold ndpPacket
  rw [par_eq]
  generalize hx : (carrier e).ipaddr4 ++ [0, 0, UInt8.ofNat e.nif.index, 1, 12, 3, UInt8.ofNat e.sys.physifCount] = x
  have hxl : x.length = 11 := by subst hx; simp; omega
  rw [wr_put (by omega)]
  simp only [Res.bind_eq, Res.bind_ok]
  rw [wr_put (by rw [put_length (by omega)]; omega)]
  have e1 : put (put mem 14 (llcHdr NDP_ORG NDP_PID)) 22 x = put mem 14 (llcHdr NDP_ORG NDP_PID ++ x) :=
    put_put (p := 14) (a := llcHdr NDP_ORG NDP_PID) (by omega)
  rw [e1]
  simp only [Res.bind_ok]
  have hr : (List.replicate 31 (0 : UInt8)).length = 31 := by simp
  rw [wr_put (by rw [put_length (by simp only [List.length_append]; omega)]; omega)]
  have e2 : put (put mem 14 (llcHdr NDP_ORG NDP_PID ++ x)) 33 (List.replicate 31 0)
      = put mem 14 (llcHdr NDP_ORG NDP_PID ++ x ++ List.replicate 31 0) := by
    have : 33 = 14 + (llcHdr NDP_ORG NDP_PID ++ x).length := by simp only [List.length_append]; omega
    rw [this, put_put (by simp only [List.length_append]; omega)]
  rw [e2]
  simp only [Res.bind_ok]
  rw [wr_put (by rw [put_length (by simp only [List.length_append]; omega)]; simp only [List.length_append, be16_length]; omega)]
  have e14 : (14 : Nat) = (NDP_DST ++ e.nif.hwaddr ++ be16 50).length := by
    simp only [List.length_append, be16_length]; omega
  have hpb := put_before (m := mem) (h := NDP_DST ++ e.nif.hwaddr ++ be16 50)
    (v := llcHdr NDP_ORG NDP_PID ++ x ++ List.replicate 31 0) (by simp only [List.length_append, be16_length]; omega)
  rw [← e14] at hpb
  rw [hpb]
  have e6 : llcFrame NDP_DST e.nif.hwaddr NDP_ORG NDP_PID (x ++ List.replicate 31 0) =
      NDP_DST ++ e.nif.hwaddr ++ be16 50 ++ (llcHdr NDP_ORG NDP_PID ++ x ++ List.replicate 31 0) := by
    unfold llcFrame
    have : 8 + (x ++ List.replicate 31 (0 : UInt8)).length = 50 := by simp only [List.length_append]; omega
    rw [this]
    simp only [List.append_assoc]
  rw [← e6]
  subst hx
  rfl

/-- LLDP frame. -/
def lldpFrame (e : PktEnv) : Bytes :=
  [0x01, 0x80, 0xc2, 0x00, 0x00, 0x0e] ++ e.nif.hwaddr ++ [0x88, 0xcc] ++ lldpEnc (lldpTlvs e)

theorem lldpPacket_eq (mem : Bytes) (e : PktEnv) (h : EnvOk e) (hm : 1518 ≤ mem.length) :
    lldpPacket mem e =
      if 14 + (lldpEnc (lldpTlvs e)).length ≤ 1518 then
        .ok (lldpFrame e ++ mem.drop (lldpFrame e).length, (lldpFrame e).length)
      else .fail := by
  have hb := emits_lldpBody e h
  have hs : e.nif.hwaddr.length = 6 := h.1.2.2.2.2.2.1
  unfold lldpPacket lldpFrame
  generalize lldpEnc (lldpTlvs e) = bs at *
  have et : be16 ETHERTYPE_LLDP = [0x88, 0xcc] := by decide
  rw [et]
  generalize hx : LLDP_DST ++ e.nif.hwaddr ++ [0x88, 0xcc] = x
  have hxl : x.length = 14 := by subst hx; simp [LLDP_DST]; omega
  rw [wr_put (by omega)]
  simp only [Res.bind_eq, Res.bind_ok]
  have hl1 : (put mem 0 x).length = mem.length := put_length (by omega)
  by_cases hfit : 14 + bs.length ≤ 1518
  · rw [hb.ok (by simp only [ETHER_MAX_LEN, hl1]; omega) (by simp only [ETHER_MAX_LEN]; omega), if_pos hfit]
    have hl2 : (x ++ bs).length = 14 + bs.length := by simp; omega
    have e1 : put (put mem 0 x) 14 bs = x ++ bs ++ mem.drop (x ++ bs).length := by
      have := put_put (m := mem) (p := 0) (a := x) (b := bs) (by omega)
      rw [Nat.zero_add, hxl] at this
      rw [this]; simp [put]
    simp only [Res.bind_ok, Res.pure_eq, Res.ok.injEq, Prod.mk.injEq]
    rw [e1]
    unfold LLDP_DST at hx
    rw [hx]
    exact ⟨rfl, hl2.symm⟩
  · rw [hb.fail (by simp only [ETHER_MAX_LEN, hl1]; omega) (by simp only [ETHER_MAX_LEN]; omega), if_neg hfit]; rfl

end Ladvd
