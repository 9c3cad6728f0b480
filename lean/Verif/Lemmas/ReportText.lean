import Verif.Lemmas.Report
import Verif.Props.Cli
/-!
# Lemmas about the bytes and the lines of the full report
-/

namespace Ladvd.Props

open Spec

/-! ## Bytes -/

/-- Code that writes safe text only. -/
def Clean {α : Type} (x : Pr α) : Prop := SafeText x.text

theorem safe_nil : SafeText [] := by intro c hc; cases hc

theorem safe_append {a b : Bytes} (ha : SafeText a) (hb : SafeText b) : SafeText (a ++ b) := by
  intro c hc
  rcases List.mem_append.mp hc with h | h
  · exact ha c h
  · exact hb c h

theorem safe_cons {a : UInt8} {b : Bytes} (ha : SafeText [a]) (hb : SafeText b) : SafeText (a :: b) := safe_append ha hb

theorem safe_digits {t : Bytes} (h : Digits t) : SafeText t := by
  intro c hc
  obtain ⟨h1, h2⟩ := h c hc
  rw [UInt8.le_iff_toNat_le] at h1 h2
  refine Or.inl ⟨?_, ?_⟩ <;> rw [UInt8.le_iff_toNat_le]
  · exact Nat.le_trans (by decide) h1
  · exact Nat.le_trans h2 (by decide)

theorem safe_sub {t : Bytes} {l : Bytes} (h : ∀ c ∈ t, c ∈ l) (hl : SafeText l) : SafeText t := fun c hc => hl c (h c hc)

theorem safe_cap (n : Nat) : SafeText (tlvStrCap n) := by
  refine safe_sub (l := CAP_STRING) ?_ (by unfold SafeText; decide +kernel)
  intro c hc
  unfold tlvStrCap at hc
  obtain ⟨i, _, hi⟩ := List.mem_flatMap.mp hc
  split at hi
  · exact List.mem_of_mem_drop (List.mem_of_mem_take hi)
  · cases hi

theorem hexDigit_safe (n : Nat) (h : n < 16) : SafeText [hexDigit n] := by
  have : ∀ k : Fin 16, SafeText [hexDigit k.1] := by unfold SafeText; decide +kernel
  exact this ⟨n, h⟩

theorem macText_safe (a : Bytes) : SafeText (macText a) := by
  have hb : ∀ b : UInt8, SafeText [hexDigit (b.toNat / 16)] ∧ SafeText [hexDigit (b.toNat % 16)] := fun b =>
    ⟨hexDigit_safe _ (by have := b.toNat_lt; omega), hexDigit_safe _ (by omega)⟩
  induction a with
  | nil => exact safe_nil
  | cons b r ih =>
    cases r with
    | nil => exact safe_cons (hb b).1 (hb b).2
    | cons c r' => exact safe_cons (hb b).1 (safe_cons (hb b).2 (safe_cons (by unfold SafeText; decide) ih))

theorem inet4Text_safe (a : Bytes) : SafeText (inet4Text a) := by
  induction a with
  | nil => exact safe_nil
  | cons b r ih =>
    cases r with
    | nil => exact safe_digits (decimal16_digits _)
    | cons c r' => exact safe_append (safe_digits (decimal16_digits _)) (safe_cons (by unfold SafeText; decide) ih)

theorem indented_safe (t : Bytes) : ∀ cur, SafeText cur → SafeText t → SafeText (indented cur t) := by
  have h1 : SafeText (lit "  ") := by unfold SafeText; decide +kernel
  have h2 : SafeText (lit "\n") := by unfold SafeText; decide +kernel
  induction t with
  | nil => intro cur hc _; exact safe_append (safe_append h1 hc) h2
  | cons b r ih =>
    intro cur hc ht
    have hr : SafeText r := fun c hc => ht c (List.mem_cons_of_mem _ hc)
    have hb : SafeText [b] := fun c hc => ht c (by rw [List.mem_singleton.mp hc]; exact List.mem_cons_self)
    unfold indented
    split
    · exact safe_append (safe_append (safe_append h1 hc) h2) (ih _ safe_nil hr)
    · exact ih _ (safe_append hc hb) hr

theorem descrLines_safe {label str : Bytes} (h1 : SafeText label) (h2 : SafeText str) : SafeText (descrLines label str) := by
  unfold descrLines
  split
  · exact safe_append (safe_append h1 (by unfold SafeText; decide +kernel)) (indented_safe _ _ safe_nil h2)
  · exact safe_append (safe_append (safe_append h1 (by unfold SafeText; decide +kernel)) h2) (by unfold SafeText; decide +kernel)

theorem clean_quiet {α : Type} (r : Res α) : Clean (quiet r) := safe_nil

theorem clean_pure {α : Type} (a : α) : Clean (pure a : Pr α) := safe_nil

theorem clean_put {t : Bytes} (h : SafeText t) : Clean (printf t) := h

theorem clean_bind {α β : Type} {x : Pr α} {f : α → Pr β} (h : Clean x) (hf : ∀ a, x.res = .ok a → Clean (f a)) : Clean (x >>= f) := by
  show SafeText (x.bind f).text
  unfold Pr.bind
  split
  · next a ha => exact safe_append h (hf a ha)
  all_goals exact h

theorem clean_any {α β : Type} {r : Res α} {f : α → Pr β} (hf : ∀ a, Clean (f a)) : Clean (quiet r >>= f) :=
  clean_bind (clean_quiet _) (fun a _ => hf a)

theorem clean_then {α β : Type} {x : Pr α} {f : α → Pr β} (h : Clean x) (hf : ∀ a, Clean (f a)) : Clean (x >>= f) :=
  clean_bind h (fun a _ => hf a)

theorem clean_str {β : Type} {m : Bytes} {p l : Nat} {f : Bytes → Pr β} (hf : ∀ a, SafeText a → Clean (f a)) :
    Clean (quiet (tlvStrCopy m p l) >>= f) := by
  refine clean_bind (clean_quiet _) (fun a ha => hf a ?_)
  have ha : tlvStrCopy m p l = .ok a := ha
  unfold tlvStrCopy at ha
  cases hr : rd m p (min l TLV_STR_MAX) with
  | ok v =>
    rw [hr] at ha
    have : tlvStrCopyVal v = a := by cases ha; rfl
    rw [← this]
    exact C12_copy_safe v
  | fail => rw [hr] at ha; cases ha
  | oob => rw [hr] at ha; cases ha
  | abort => rw [hr] at ha; cases ha
  | stuck => rw [hr] at ha; cases ha

/-- Text of an address, if any. -/
def OptSafe (o : Option Bytes) : Prop := ∀ t, o = some t → SafeText t

theorem addr_safe {env : PrintEnv} (h6 : ∀ a, SafeText (env.ntop6 a)) {af : Nat} {m : Bytes} {p l : Nat} {o : Option Bytes}
    (h : tlvAddrText env af m p l = .ok o) : OptSafe o := by
  unfold tlvAddrText at h
  have key : ∀ {n : Nat} {g : Bytes → Bytes}, (∀ a, SafeText (g a)) →
      (do let a ← rd m p n; pure (some (g a)) : Res (Option Bytes)) = .ok o → OptSafe o := by
    intro n g hg h t ht
    cases hr : rd m p n with
    | ok v =>
      rw [hr] at h
      have : some (g v) = o := by cases h; rfl
      rw [ht] at this
      cases this
      exact hg v
    | fail => rw [hr] at h; cases h
    | oob => rw [hr] at h; cases h
    | abort => rw [hr] at h; cases h
    | stuck => rw [hr] at h; cases h
  have none : ∀ {o : Option Bytes}, (Res.ok Option.none : Res (Option Bytes)) = .ok o → OptSafe o := by
    intro o h t ht; cases h; cases ht
  split at h
  · split at h
    · exact none h
    · exact key inet4Text_safe h
  · split at h
    · split at h
      · exact none h
      · exact key h6 h
    · split at h
      · split at h
        · exact none h
        · exact key macText_safe h
      · exact none h

theorem clean_addr {β : Type} {env : PrintEnv} (h6 : ∀ a, SafeText (env.ntop6 a)) {af : Nat} {m : Bytes} {p l : Nat} {f : Option Bytes → Pr β}
    (hf : ∀ o, OptSafe o → Clean (f o)) : Clean (quiet (tlvAddrText env af m p l) >>= f) :=
  clean_bind (clean_quiet _) (fun a ha => hf a (addr_safe h6 ha))

theorem safe_line {a b c : Bytes} (ha : SafeText a) (hb : SafeText b) (hc : SafeText c) : SafeText (a ++ b ++ c) :=
  safe_append (safe_append ha hb) hc

/-- A fixed text. -/
macro "safe_lit" : tactic => `(tactic| (unfold SafeText; decide +kernel))

theorem chassis_clean {env : PrintEnv} (h6 : ∀ a, SafeText (env.ntop6 a)) (m : Bytes) (c : Cur) : Clean (lldpChassisIdP env m c) := by
  unfold lldpChassisIdP
  split
  · exact clean_quiet _
  · refine clean_any (fun x => ?_)
    have fin : ∀ o, OptSafe o → Clean (match o with | some str => printf (lit "Chassis id: " ++ str ++ lit "\n") | none => pure ()) := by
      intro o ho
      cases o with
      | none => exact clean_pure _
      | some t => exact clean_put (safe_line (by safe_lit) (ho t rfl) (by safe_lit))
    obtain ⟨sub, c⟩ := x
    dsimp only
    split
    · refine clean_str (fun a ha => ?_)
      exact clean_bind (clean_pure _) (fun o ho => fin o (by cases ho; intro t ht; cases ht; exact ha))
    · split
      · exact clean_addr h6 (fun o ho => fin o ho)
      · split
        · refine clean_any (fun y => ?_)
          exact clean_addr h6 (fun o ho => fin o ho)
        · exact clean_bind (clean_pure _) (fun o ho => fin o (by cases ho; intro t ht; cases ht))

theorem port_clean {env : PrintEnv} (h6 : ∀ a, SafeText (env.ntop6 a)) (m : Bytes) (c : Cur) : Clean (lldpPortIdP env m c) := by
  unfold lldpPortIdP
  split
  · exact clean_quiet _
  · refine clean_any (fun x => ?_)
    obtain ⟨sub, c⟩ := x
    dsimp only
    split
    · exact clean_str (fun a ha => clean_put (safe_line (by safe_lit) ha (by safe_lit)))
    · split
      · refine clean_addr h6 (fun o ho => ?_)
        cases o with
        | none => exact clean_quiet _
        | some t => exact clean_put (safe_line (by safe_lit) (ho t rfl) (by safe_lit))
      · exact clean_pure _

theorem name_clean (m : Bytes) (c : Cur) (s : Msg) : Clean (lldpSystemNameP m c s) := by
  unfold lldpSystemNameP
  split
  · exact clean_quiet _
  · split
    · exact clean_quiet _
    · exact clean_str (fun a ha => clean_then (clean_put (safe_line (by safe_lit) ha (by safe_lit))) (fun _ => clean_pure _))

theorem lldpDescr_clean (t : Nat) (m : Bytes) (c : Cur) : Clean (lldpDescrPrint t m c) := by
  unfold lldpDescrPrint
  refine clean_str (fun a ha => clean_put (descrLines_safe ?_ ha))
  unfold lldpDescrLabel
  split
  · safe_lit
  · split <;> safe_lit

theorem hold_safe (env : PrintEnv) (ttl : Nat) : SafeText (holdText env ttl) := safe_digits (decimal16_digits _)

theorem lldpCap_clean (m : Bytes) (c : Cur) : Clean (lldpSystemCapP m c) := by
  unfold lldpSystemCapP
  split
  · exact clean_quiet _
  · refine clean_any (fun x => clean_any (fun y => ?_))
    dsimp only
    split
    · exact clean_quiet _
    · split
      · exact clean_quiet _
      · exact clean_then (clean_put (safe_line (by safe_lit) (safe_cap _) (by safe_lit)))
          (fun _ => clean_put (safe_line (by safe_lit) (safe_cap _) (by safe_lit)))

theorem mgmt_clean {env : PrintEnv} (h6 : ∀ a, SafeText (env.ntop6 a)) (m : Bytes) (c : Cur) : Clean (lldpMgmtAddrP env m c) := by
  unfold lldpMgmtAddrP
  refine clean_any (fun x => clean_any (fun y => ?_))
  obtain ⟨aflen, c⟩ := x
  obtain ⟨afnum, c⟩ := y
  have hs : ∀ {af : Nat} {astr : Bytes}, SafeText astr → Clean (if af = 0 then quiet .fail
      else if ¬ ((aflen + 256 - 1) % 256 < c.length) then quiet .fail
      else do
        let str ← quiet (tlvAddrText env af m c.pos ((aflen + 256 - 1) % 256))
        match str with
        | none => quiet .fail
        | some str => printf (lit "Management Address " ++ astr ++ lit ": " ++ str ++ lit "\n")) := by
    intro af astr ha
    split
    · exact clean_quiet _
    · split
      · exact clean_quiet _
      · refine clean_addr h6 (fun o ho => ?_)
        cases o with
        | none => exact clean_quiet _
        | some t => exact clean_put (safe_line (safe_line (by safe_lit) ha (by safe_lit)) (ho t rfl) (by safe_lit))
  dsimp only
  by_cases h1 : afnum = 1
  · rw [if_pos h1]; exact hs (by safe_lit)
  · rw [if_neg h1]
    by_cases h2 : afnum = 2
    · rw [if_pos h2]; exact hs (by safe_lit)
    · rw [if_neg h2]
      by_cases h3 : afnum = 6
      · rw [if_pos h3]; exact hs (by safe_lit)
      · rw [if_neg h3]; exact hs safe_nil

theorem private_clean (m : Bytes) (c : Cur) : Clean (lldpPrivateP m c) := by
  unfold lldpPrivateP
  refine clean_any (fun x => ?_)
  obtain ⟨oui, c⟩ := x
  dsimp only
  split
  · unfold lldpPrivate8021P
    refine clean_any (fun y => ?_)
    obtain ⟨sub, c⟩ := y
    dsimp only
    split
    · split
      · exact clean_quiet _
      · exact clean_any (fun z => clean_put (safe_line (by safe_lit) (safe_digits (decimal16_digits _)) (by safe_lit)))
    · exact clean_pure _
  · exact clean_pure _

theorem lldpTlv_clean {env : PrintEnv} (h6 : ∀ a, SafeText (env.ntop6 a)) (m : Bytes) (t : Nat) (c : Cur) (s : Msg) :
    Clean (lldpTlvP env m t c s) := by
  unfold lldpTlvP
  split
  · exact name_clean m c s
  · split
    · exact clean_then (lldpDescr_clean t m c) (fun _ => clean_pure _)
    · split
      · exact clean_then (lldpCap_clean m c) (fun _ => clean_pure _)
      · split
        · exact clean_then (mgmt_clean h6 m c) (fun _ => clean_pure _)
        · split
          · exact clean_then (private_clean m c) (fun _ => clean_pure _)
          · split
            · exact clean_quiet _
            · exact clean_pure _

theorem lldpLoop_clean {env : PrintEnv} (h6 : ∀ a, SafeText (env.ntop6 a)) (m : Bytes) (fuel : Nat) : ∀ (t0 : Nat) (c : Cur) (s : Msg),
    Clean (lldpLoopP env m fuel t0 c s) := by
  induction fuel with
  | zero => intro t0 c s; exact clean_quiet _
  | succ n ih =>
    intro t0 c s
    unfold lldpLoopP
    split
    · exact clean_pure _
    · refine clean_any (fun x => ?_)
      obtain ⟨t, l, c⟩ := x
      dsimp only
      split
      · exact clean_quiet _
      · split
        · split
          · exact clean_quiet _
          · exact clean_pure _
        · exact clean_then (lldpTlv_clean h6 m t _ s) (fun s => clean_any (fun c => ih t c s))

theorem lldp_clean {env : PrintEnv} (h6 : ∀ a, SafeText (env.ntop6 a)) (m : Bytes) (len : Nat) (s : Msg) : Clean (lldpDecodeP env m len s) := by
  unfold lldpDecodeP
  refine clean_any (fun p => clean_any (fun x => ?_))
  obtain ⟨t, l, c⟩ := x
  dsimp only
  split
  · exact clean_quiet _
  · split
    · exact clean_quiet _
    · refine clean_then (chassis_clean h6 m _) (fun _ => clean_any (fun c => clean_any (fun x => ?_)))
      obtain ⟨t, l, c⟩ := x
      dsimp only
      split
      · exact clean_quiet _
      · split
        · exact clean_quiet _
        · refine clean_then (port_clean h6 m _) (fun _ => clean_any (fun c => clean_any (fun x => ?_)))
          obtain ⟨t, l, c⟩ := x
          dsimp only
          split
          · exact clean_quiet _
          · split
            · exact clean_quiet _
            · refine clean_any (fun x => clean_then ?_ (fun _ => clean_then (lldpLoop_clean h6 m _ _ _ _) (fun x => ?_)))
              · exact clean_put (safe_line (by safe_lit) (hold_safe _ _) (by safe_lit))
              · obtain ⟨t, c, s⟩ := x
                dsimp only
                split
                · exact clean_quiet _
                · exact clean_pure _

theorem cdpHeader_clean (env : PrintEnv) (m : Bytes) (c : Cur) (s : Msg) : Clean (cdpHeaderCheckP env m c s) := by
  unfold cdpHeaderCheckP
  split
  · exact clean_quiet _
  · refine clean_any (fun h => ?_)
    dsimp only
    split
    · exact clean_quiet _
    · exact clean_then (clean_put (safe_append (safe_line (safe_append (by safe_lit) (safe_digits (decimal16_digits _))) (by safe_lit) (hold_safe _ _)) (by safe_lit)))
        (fun _ => clean_pure _)

theorem cdpAddrOne_clean {env : PrintEnv} (h6 : ∀ a, SafeText (env.ntop6 a)) (m : Bytes) (c : Cur) : Clean (cdpAddrOneP env m c) := by
  unfold cdpAddrOneP
  refine clean_any (fun x => clean_any (fun y => ?_))
  dsimp only
  split
  · exact clean_quiet _
  · refine clean_any (fun af => clean_any (fun c => clean_any (fun z => ?_)))
    split
    · exact clean_quiet _
    · split
      · refine clean_addr h6 (fun o ho => ?_)
        cases o with
        | none => exact clean_any (fun _ => clean_quiet _)
        | some t =>
          refine clean_then (clean_put (safe_line (safe_line (by safe_lit) ?_ (by safe_lit)) (ho t rfl) (by safe_lit))) (fun _ => clean_quiet _)
          split
          · safe_lit
          · exact safe_nil
      · exact clean_quiet _

theorem cdpAddrLoop_clean {env : PrintEnv} (h6 : ∀ a, SafeText (env.ntop6 a)) (m : Bytes) (fuel : Nat) : ∀ (count : Nat) (c : Cur),
    Clean (cdpAddrLoopP env m fuel count c) := by
  induction fuel with
  | zero => intro t0 c; exact clean_quiet _
  | succ n ih =>
    intro count c
    unfold cdpAddrLoopP
    refine clean_then (cdpAddrOne_clean h6 m c) (fun c => ?_)
    dsimp only
    split
    · exact ih _ _
    · exact clean_pure _

theorem cdpTlv_clean {env : PrintEnv} (h6 : ∀ a, SafeText (env.ntop6 a)) (hn : SafeText env.name) (m : Bytes) (t : Nat) (c : Cur) :
    Clean (cdpTlvP env m t c) := by
  unfold cdpTlvP
  split
  · unfold cdpSystemNameP
    refine clean_str (fun a ha => clean_put (safe_line (safe_append ?_ (by safe_lit)) ha (by safe_lit)))
    split <;> safe_lit
  · split
    · unfold cdpPortIdP
      exact clean_str (fun a ha => clean_put (safe_line (safe_line (by safe_lit) hn (by safe_lit)) ha (by safe_lit)))
    · split
      · unfold cdpSystemCapP
        split
        · exact clean_quiet _
        · exact clean_any (fun x => clean_put (safe_line (by safe_lit) (safe_cap _) (by safe_lit)))
      · split
        · unfold cdpAddrP
          refine clean_any (fun x => clean_then (clean_put (safe_append ?_ (by safe_lit))) (fun _ => cdpAddrLoop_clean h6 m _ _ _))
          split <;> safe_lit
        · split
          · unfold cdpDescrPrint
            refine clean_str (fun a ha => clean_put (descrLines_safe ?_ ha))
            unfold cdpDescrLabel
            split
            · safe_lit
            · split <;> safe_lit
          · split
            · exact clean_str (fun a ha => clean_put (safe_line (by safe_lit) ha (by safe_lit)))
            · split
              · unfold cdpVlanP
                split
                · exact clean_quiet _
                · exact clean_any (fun z => clean_put (safe_line (by safe_lit) (safe_digits (decimal16_digits _)) (by safe_lit)))
              · split
                · unfold cdpDuplexPrintP
                  split
                  · exact clean_quiet _
                  · refine clean_any (fun z => clean_put (safe_line (by safe_lit) ?_ (by safe_lit)))
                    split <;> safe_lit
                · exact clean_pure _

theorem cdpLoop_clean {env : PrintEnv} (h6 : ∀ a, SafeText (env.ntop6 a)) (hn : SafeText env.name) (m : Bytes) (fuel : Nat) : ∀ (c : Cur),
    Clean (cdpLoopP env m fuel c) := by
  induction fuel with
  | zero => intro c; exact clean_quiet _
  | succ n ih =>
    intro c
    unfold cdpLoopP
    split
    · exact clean_pure _
    · refine clean_any (fun x => ?_)
      obtain ⟨t, l, c⟩ := x
      dsimp only
      split
      · exact clean_quiet _
      · exact clean_then (cdpTlv_clean h6 hn m t _) (fun _ => clean_any (fun c => ih c))

theorem cdp_clean {env : PrintEnv} (h6 : ∀ a, SafeText (env.ntop6 a)) (hn : SafeText env.name) (m : Bytes) (len : Nat) (s : Msg) :
    Clean (cdpDecodeP env m len s) := by
  unfold cdpDecodeP
  exact clean_any (fun p => clean_then (cdpHeader_clean env m _ s) (fun s => clean_then (cdpLoop_clean h6 hn m _ _) (fun c => clean_pure _)))

theorem decode_clean {env : PrintEnv} (h6 : ∀ a, SafeText (env.ntop6 a)) (hn : SafeText env.name) (p : Proto) (m : Bytes) (len : Nat) (s : Msg) :
    Clean (p.decodeP env m len s) := by
  cases p with
  | lldp => exact lldp_clean h6 m len s
  | cdp => exact cdp_clean h6 hn m len s
  | cdp1 => exact cdp_clean h6 hn m len s
  | edp => exact clean_quiet _
  | fdp => exact clean_quiet _
  | ndp => exact clean_quiet _

theorem reportMsg_clean {ntop6 : Bytes → Bytes} (h6 : ∀ a, SafeText (ntop6 a)) (c : CliConf) (now clock : Int) (st : CliSt) (e : CliIn)
    (hn : SafeText e.name) : Clean (reportMsg c ntop6 now clock st e) := by
  unfold reportMsg
  split
  · exact clean_pure _
  · next p _ =>
    have hd := decode_clean (env := ⟨clock, e.received, e.name, ntop6⟩) h6 hn p (e.msg ++ [2, 0]) e.len.toNat
      { proto := e.proto, ttl := st.ttl, peer := st.peer }
    split
    · exact clean_pure _
    · split
      · exact clean_pure _
      · split
        · exact clean_pure _
        · dsimp only
          repeat' split
          all_goals exact hd

/-! ## Lines -/

theorem lines_nil (L : Bytes → Prop) : LinesOf L [] := ⟨[], rfl, by intro l hl; cases hl⟩

theorem lines_append {L : Bytes → Prop} {a b : Bytes} (ha : LinesOf L a) (hb : LinesOf L b) : LinesOf L (a ++ b) := by
  obtain ⟨la, rfl, ha⟩ := ha
  obtain ⟨lb, rfl, hb⟩ := hb
  refine ⟨la ++ lb, by rw [List.flatMap_append], ?_⟩
  intro l hl
  rcases List.mem_append.mp hl with h | h
  · exact ha l h
  · exact hb l h

theorem lines_mono {L M : Bytes → Prop} (h : ∀ x, L x → M x) {a : Bytes} (ha : LinesOf L a) : LinesOf M a := by
  obtain ⟨la, rfl, ha⟩ := ha
  refine ⟨la, rfl, fun l hl => ⟨(ha l hl).1, ?_⟩⟩
  rcases (ha l hl).2 with h' | ⟨x, hx, hp⟩
  · exact Or.inl h'
  · exact Or.inr ⟨x, h x hx, hp⟩

theorem lines_one {L : Bytes → Prop} {x v t : Bytes} (hx : L x) (h1 : 0x0a ∉ x) (h2 : 0x0a ∉ v) (ht : t = x ++ v ++ [0x0a]) : LinesOf L t := by
  subst ht
  refine ⟨[x ++ v], by simp, ?_⟩
  intro l hl
  rw [List.mem_singleton.mp hl]
  refine ⟨?_, Or.inr ⟨x, hx, List.prefix_append _ _⟩⟩
  intro h
  rcases List.mem_append.mp h with h | h
  · exact h1 h
  · exact h2 h

theorem lines_labelled {L : Bytes → Prop} {lab v : Bytes} (hx : L (lab ++ [0x3a, 0x20])) (h1 : 0x0a ∉ lab) (h2 : 0x0a ∉ v) :
    LinesOf L (labelled lab v) :=
  lines_one hx (by simp [h1]) h2 rfl

theorem split_no (d : UInt8) (v : Bytes) : ∀ y ∈ splitAtByte d v, d ∉ y := by
  induction v with
  | nil => intro y hy; rw [List.mem_singleton.mp hy]; simp
  | cons b r ih =>
    intro y hy
    unfold splitAtByte at hy
    split at hy
    · rcases List.mem_cons.mp hy with rfl | hy
      · simp
      · exact ih y hy
    · next hb =>
      have hb' : d ≠ b := fun h => hb h.symm
      cases hs : splitAtByte d r with
      | nil => rw [hs] at hy; rw [List.mem_singleton.mp hy]; simp [hb']
      | cons f fs =>
        rw [hs] at hy ih
        rcases List.mem_cons.mp hy with rfl | hy
        · have := ih f List.mem_cons_self
          simp [hb', this]
        · exact ih y (List.mem_cons_of_mem _ hy)

theorem lines_paragraph {L : Bytes → Prop} {lab v : Bytes} (hx : L (lab ++ [0x3a])) (h1 : 0x0a ∉ lab) : LinesOf L (paragraph lab v) := by
  have h1' : (0x0a : UInt8) ∉ lab ++ [0x3a] := by simp [h1]
  unfold paragraph
  split
  · refine lines_append (lines_one (v := []) hx h1' (by simp) (by simp)) ?_
    refine ⟨(splitAtByte 0x0a v).map (fun l => [0x20, 0x20] ++ l), ?_, ?_⟩
    · rw [List.flatMap_map]
    · intro l hl
      obtain ⟨y, hy, rfl⟩ := List.mem_map.mp hl
      refine ⟨?_, Or.inl (List.prefix_append _ _)⟩
      have := split_no 0x0a v y hy
      simp [this]
  · next h => exact lines_one (v := [0x20] ++ v) hx h1' (by simp [h]) (by simp [labelled])

theorem nolf_shown {v : Bytes} (h : (0x0a : UInt8) ∉ v) : (0x0a : UInt8) ∉ shown v := by
  intro hm
  unfold shown at hm
  obtain ⟨b, hb, hc⟩ := List.mem_flatMap.mp hm
  have hbv : b ∈ v := List.mem_of_mem_take ((List.takeWhile_sublist _).subset hb)
  have key : ∀ b : UInt8, (0x0a : UInt8) ∈ showByte b → b = 0x0a := by
    apply forall_uint8 (P := fun b => (0x0a : UInt8) ∈ showByte b → b = 0x0a)
    decide +kernel
  exact h (key b hc ▸ hbv)

theorem nolf_digits {t : Bytes} (h : Digits t) : (0x0a : UInt8) ∉ t := fun hm => absurd (h _ hm).1 (by decide)

theorem nolf_ether (a : Bytes) : (0x0a : UInt8) ∉ etherText a := by
  rw [← macText_eq]
  have hx : ∀ n, n < 16 → hexDigit n ≠ 0x0a := by
    intro n hn
    have : ∀ k : Fin 16, hexDigit k.1 ≠ 0x0a := by decide +kernel
    exact this ⟨n, hn⟩
  induction a with
  | nil => simp [macText]
  | cons b r ih =>
    have h1 := hx (b.toNat / 16) (by have := b.toNat_lt; omega)
    have h2 := hx (b.toNat % 16) (by omega)
    cases r with
    | nil =>
      simp only [macText, List.mem_cons, List.not_mem_nil, or_false, not_or]
      exact ⟨h1.symm, h2.symm⟩
    | cons c r' =>
      unfold macText
      simp only [List.mem_cons, not_or]
      exact ⟨h1.symm, h2.symm, by decide, ih⟩

theorem nolf_dotted (a : Bytes) : (0x0a : UInt8) ∉ dottedText a := by
  rw [← inet4Text_eq]
  induction a with
  | nil => simp [inet4Text]
  | cons b r ih =>
    have h1 : (0x0a : UInt8) ∉ decimal16 b.toNat := nolf_digits (decimal16_digits _)
    cases r with
    | nil => exact h1
    | cons c r' =>
      unfold inet4Text
      simp only [List.mem_append, List.mem_cons, not_or]
      exact ⟨h1, by decide, ih⟩

theorem nolf_caps (n : Nat) : (0x0a : UInt8) ∉ capLetters n := fun h => absurd (capLetters_safe n _ h) (by decide +kernel)

/-- The label belongs to the type of one of the TLVs. -/
def LabelIn (labels : Nat → List Bytes) (ts : List Tlv) (x : Bytes) : Prop := ∃ t ∈ ts, x ∈ labels t.1

theorem labelIn_mono {labels : Nat → List Bytes} {ts us : List Tlv} (h : ∀ t ∈ ts, t ∈ us) {x : Bytes} (hx : LabelIn labels ts x) :
    LabelIn labels us x := by
  obtain ⟨t, ht, hx⟩ := hx
  exact ⟨t, h t ht, hx⟩

/-- A fixed text without line feed. -/
macro "nolf_lit" : tactic => `(tactic| decide +kernel)

theorem chassis_lines {env : PrintEnv} (h6 : ∀ a, (0x0a : UInt8) ∉ env.ntop6 a) {v x : Bytes} (hp : LldpPlain (1, v))
    (h : chassisLine env v = some x) : LinesOf (LabelIn lldpLabels [(1, v)]) x := by
  have hl : LabelIn lldpLabels [(1, v)] (lit "Chassis id" ++ [0x3a, 0x20]) := ⟨(1, v), by simp, (by decide +kernel : _ ∈ lldpLabels 1)⟩
  match v, h with
  | sub :: b :: r, h =>
    simp only [chassisLine] at h
    split at h
    · cases h
    · split at h
      · next hs =>
        cases h
        have hv : (0x0a : UInt8) ∉ b :: r := by
          intro hm
          refine hp (Or.inr (Or.inl ⟨rfl, ?_⟩)) (List.mem_cons_of_mem _ hm)
          simpa using hs
        exact lines_labelled hl (by nolf_lit) (nolf_shown hv)
      · split at h
        · cases h; exact lines_labelled hl (by nolf_lit) (nolf_ether _)
        · split at h
          · cases h; exact lines_labelled hl (by nolf_lit) (nolf_dotted _)
          · split at h
            · cases h; exact lines_labelled hl (by nolf_lit) (h6 _)
            · split at h
              · cases h; exact lines_labelled hl (by nolf_lit) (nolf_ether _)
              · cases h; exact lines_nil _

theorem port_lines {v x : Bytes} (hp : LldpPlain (2, v)) (h : portLine v = some x) : LinesOf (LabelIn lldpLabels [(2, v)]) x := by
  have hl : LabelIn lldpLabels [(2, v)] (lit "Port id" ++ [0x3a, 0x20]) := ⟨(2, v), by simp, (by decide +kernel : _ ∈ lldpLabels 2)⟩
  match v, h with
  | sub :: b :: r, h =>
    simp only [portLine] at h
    split at h
    · cases h
    · split at h
      · next hs =>
        cases h
        have hv : (0x0a : UInt8) ∉ b :: r := by
          intro hm
          refine hp (Or.inr (Or.inr ⟨rfl, ?_⟩)) (List.mem_cons_of_mem _ hm)
          simpa using hs
        exact lines_labelled hl (by nolf_lit) (nolf_shown hv)
      · split at h
        · cases h; exact lines_labelled hl (by nolf_lit) (nolf_ether _)
        · cases h; exact lines_nil _

theorem lldp_line_lines {env : PrintEnv} (h6 : ∀ a, (0x0a : UInt8) ∉ env.ntop6 a) {named : Bool} {t : Tlv} {x : Bytes} (hp : LldpPlain t)
    (h : lldpLine env named t = some x) : LinesOf (LabelIn lldpLabels [t]) x := by
  obtain ⟨ty, v⟩ := t
  have lab : ∀ {n : Nat} {l : Bytes}, ty = n → l ∈ lldpLabels n → LabelIn lldpLabels [(ty, v)] l := by
    rintro n l rfl h; exact ⟨(ty, v), by simp, h⟩
  unfold lldpLine at h
  dsimp only at h
  split at h
  · next ht =>
    split at h
    · cases h
    · cases h
      exact lines_labelled (lab ht (by decide +kernel)) (by nolf_lit) (nolf_shown (hp (Or.inl ht)))
  · split at h
    · next ht => cases h; exact lines_paragraph (lab ht (by decide +kernel)) (by nolf_lit)
    · split at h
      · next ht => cases h; exact lines_paragraph (lab ht (by decide +kernel)) (by nolf_lit)
      · split at h
        · next ht =>
          unfold capsLine at h
          dsimp only at h
          split at h
          · cases h
          · split at h
            · cases h
            · split at h
              · cases h
              · cases h
                exact lines_append (lines_labelled (lab ht (by decide +kernel)) (by nolf_lit) (nolf_caps _))
                  (lines_labelled (lab ht (by decide +kernel)) (by nolf_lit) (nolf_caps _))
        · split at h
          · next ht =>
            match v, h with
            | alen :: fam :: r, h =>
              simp only [mgmtLine] at h
              split at h
              · cases h
              · split at h
                · cases h; exact lines_labelled (lab ht (by decide +kernel)) (by nolf_lit) (nolf_dotted _)
                · split at h
                  · cases h; exact lines_labelled (lab ht (by decide +kernel)) (by nolf_lit) (h6 _)
                  · split at h
                    · cases h; exact lines_labelled (lab ht (by decide +kernel)) (by nolf_lit) (nolf_ether _)
                    · cases h
          · split at h
            · next ht =>
              match v, h with
              | o0 :: o1 :: o2 :: r, h =>
                simp only [orgLine] at h
                split at h
                · cases h; exact lines_nil _
                · match r, h with
                  | sub :: id, h =>
                    dsimp only at h
                    split at h
                    · cases h; exact lines_nil _
                    · split at h
                      · cases h; exact lines_labelled (lab ht (by decide +kernel)) (by nolf_lit) (nolf_digits (decimal_safe _))
                      · cases h
            · split at h
              · cases h
              · cases h; exact lines_nil _

theorem lldp_lines {env : PrintEnv} (h6 : ∀ a, (0x0a : UInt8) ∉ env.ntop6 a) (ts : List Tlv) (hp : ∀ t ∈ ts, LldpPlain t) : ∀ named,
    LinesOf (LabelIn lldpLabels ts) (lldpLines env named ts).1 := by
  induction ts with
  | nil => intro named; exact lines_nil _
  | cons t ts ih =>
    intro named
    unfold lldpLines
    split
    · exact lines_nil _
    · next x hx =>
      refine lines_append (lines_mono (fun y hy => labelIn_mono ?_ hy) (lldp_line_lines h6 (hp t List.mem_cons_self) hx))
        (lines_mono (fun y hy => labelIn_mono ?_ hy) (ih (fun u hu => hp u (List.mem_cons_of_mem _ hu)) _))
      · intro u hu; rw [List.mem_singleton.mp hu]; exact List.mem_cons_self
      · intro u hu; exact List.mem_cons_of_mem _ hu

theorem lldpReport_lines {env : PrintEnv} (h6 : ∀ a, (0x0a : UInt8) ∉ env.ntop6 a) (ts : List Tlv) (hp : ∀ t ∈ ts, LldpPlain t) (named : Bool) :
    LinesOf (LabelIn lldpLabels ts) (lldpReport env named ts).1 := by
  have up : ∀ {us : List Tlv} {x : Bytes}, (∀ t ∈ us, t ∈ ts) → LinesOf (LabelIn lldpLabels us) x → LinesOf (LabelIn lldpLabels ts) x :=
    fun h => lines_mono (fun y hy => labelIn_mono h hy)
  unfold lldpReport
  split
  · exact lines_nil _
  · next t1 chassis ts1 =>
    split
    · exact lines_nil _
    · next a ha =>
      have h1 : t1 = 1 := by
        by_cases h : t1 = 1
        · exact h
        · rw [if_neg h] at ha; cases ha
      subst h1
      rw [if_pos rfl] at ha
      have la := up (by simp) (chassis_lines h6 (hp _ (by simp)) ha)
      split
      · exact la
      · next t2 port ts2 =>
        split
        · exact la
        · next b hb =>
          have h2 : t2 = 2 := by
            by_cases h : t2 = 2
            · exact h
            · rw [if_neg h] at hb; cases hb
          subst h2
          rw [if_pos rfl] at hb
          have lb := up (by simp) (port_lines (hp _ (by simp)) hb)
          split
          · exact lines_append la lb
          · next t3 ttl ts3 =>
            split
            · next h3 =>
              obtain ⟨rfl, _⟩ := h3
              refine lines_append ?_ (up (fun t ht => by simp [ht]) (lldp_lines h6 ts3 (fun t ht => hp t (by simp [ht])) named))
              have e : a ++ b ++ lit "Time remaining: " ++ decimal (secondsLeft env (beNat ttl)) ++ lit " seconds\n" =
                  a ++ b ++ (lit "Time remaining: " ++ (decimal (secondsLeft env (beNat ttl)) ++ lit " seconds") ++ [0x0a]) := by
                rw [show lit " seconds\n" = lit " seconds" ++ [0x0a] by decide +kernel]
                simp only [List.append_assoc]
              rw [e]
              refine lines_append (lines_append la lb) (lines_one (x := lit "Time remaining: ") ⟨(3, ttl), by simp, (by decide +kernel : _ ∈ lldpLabels 3)⟩ (by nolf_lit) ?_ rfl)
              intro hm
              rcases List.mem_append.mp hm with h | h
              · exact nolf_digits (decimal_safe _) h
              · exact absurd h (by decide +kernel)
            · exact lines_append la lb

theorem addr_lines {L : Bytes → Prop} {env : PrintEnv} (h6 : ∀ a, (0x0a : UInt8) ∉ env.ntop6 a) (n : Nat) : ∀ v, LinesOf L (addrLines env n v).1 := by
  have ind : ∀ {lab v : Bytes}, (0x0a : UInt8) ∉ lab → (0x0a : UInt8) ∉ v → [0x20, 0x20] <+: lab → LinesOf L (labelled lab v) := by
    intro lab v h1 h2 h3
    refine ⟨[lab ++ [0x3a, 0x20] ++ v], by simp [labelled], ?_⟩
    intro l hl
    rw [List.mem_singleton.mp hl]
    refine ⟨by simp [h1, h2], Or.inl ?_⟩
    rw [List.append_assoc]
    exact h3.trans (List.prefix_append _ _)
  induction n with
  | zero => intro v; exact lines_nil _
  | succ n ih =>
    intro v
    unfold addrLines
    split
    · exact lines_nil _
    · next e r _ =>
      split
      · exact lines_nil _
      · next x hx =>
        have lx : LinesOf L x := by
          unfold addrLine at hx
          split at hx
          · split at hx
            · cases hx; exact ind (by nolf_lit) (nolf_dotted _) (by decide +kernel)
            · cases hx
          · split at hx
            · split at hx
              · cases hx; exact ind (by nolf_lit) (h6 _) (by decide +kernel)
              · cases hx
            · cases hx; exact lines_nil _
        split
        · exact lx
        · exact lines_append lx (ih r)

theorem cdp_line_lines {env : PrintEnv} (h6 : ∀ a, (0x0a : UInt8) ∉ env.ntop6 a) (hn : (0x0a : UInt8) ∉ env.name) {t : Tlv} (hp : CdpPlain t) :
    LinesOf (LabelIn cdpLabels [t]) (cdpLine env t).1 := by
  obtain ⟨ty, v⟩ := t
  have lab : ∀ {n : Nat} {l : Bytes}, ty = n → l ∈ cdpLabels n → LabelIn cdpLabels [(ty, v)] l := by
    rintro n l rfl h; exact ⟨(ty, v), by simp, h⟩
  have addrs : ∀ {l : Bytes}, LabelIn cdpLabels [(ty, v)] (l ++ lit " address(es):") → (0x0a : UInt8) ∉ l → LinesOf (LabelIn cdpLabels [(ty, v)]) (addrsLine env l v).1 := by
    intro l hl hno
    unfold addrsLine
    split
    · exact lines_nil _
    · refine lines_append (lines_one (v := []) hl ?_ (by simp) ?_) (addr_lines h6 _ _)
      · intro hm
        rcases List.mem_append.mp hm with h | h
        · exact hno h
        · exact absurd h (by decide +kernel)
      · rw [show lit " address(es):\n" = lit " address(es):" ++ [0x0a] by decide +kernel]
        simp
  have pl : ∀ {n : Nat}, ty = n → n ∈ [0x01, 0x14, 0x03, 0x09] → (0x0a : UInt8) ∉ shown v := by
    rintro n rfl h; exact nolf_shown (hp h)
  unfold cdpLine
  dsimp only
  split
  · exact lines_labelled (lab rfl (by decide +kernel)) (by nolf_lit) (pl rfl (by decide))
  · exact lines_labelled (lab rfl (by decide +kernel)) (by nolf_lit) (pl rfl (by decide))
  · refine lines_one (x := lit "Interface: ") (v := env.name ++ lit ", Port ID (outgoing port): " ++ shown v) (lab rfl (by decide +kernel)) (by nolf_lit) ?_ ?_
    · intro hm
      rcases List.mem_append.mp hm with h | h
      · rcases List.mem_append.mp h with h | h
        · exact hn h
        · exact absurd h (by decide +kernel)
      · exact pl rfl (by decide) h
    · rw [show lit "\n" = [0x0a] by decide +kernel]
      simp only [List.append_assoc]
  · split
    · exact lines_labelled (lab rfl (by decide +kernel)) (by nolf_lit) (nolf_caps _)
    · exact lines_nil _
  · exact addrs (lab rfl (by decide +kernel)) (by nolf_lit)
  · exact addrs (lab rfl (by decide +kernel)) (by nolf_lit)
  · exact lines_paragraph (lab rfl (by decide +kernel)) (by nolf_lit)
  · exact lines_paragraph (lab rfl (by decide +kernel)) (by nolf_lit)
  · refine lines_one (x := lit "VTP Management Domain: ") (v := [0x27] ++ shown v ++ [0x27]) (lab rfl (by decide +kernel)) (by nolf_lit) ?_ ?_
    · have := pl rfl (by decide)
      simp [this]
    · rw [show lit "VTP Management Domain: '" = lit "VTP Management Domain: " ++ [0x27] by decide +kernel, show lit "'\n" = [0x27, 0x0a] by decide +kernel]
      simp
  · split
    · exact lines_labelled (lab rfl (by decide +kernel)) (by nolf_lit) (nolf_digits (decimal_safe _))
    · exact lines_nil _
  · split
    · refine lines_labelled (lab rfl (by decide +kernel)) (by nolf_lit) ?_
      split <;> nolf_lit
    · exact lines_nil _
  · exact lines_nil _

theorem cdp_lines {env : PrintEnv} (h6 : ∀ a, (0x0a : UInt8) ∉ env.ntop6 a) (hn : (0x0a : UInt8) ∉ env.name) (ts : List Tlv)
    (hp : ∀ t ∈ ts, CdpPlain t) : LinesOf (LabelIn cdpLabels ts) (cdpLines env ts).1 := by
  induction ts with
  | nil => exact lines_nil _
  | cons t ts ih =>
    have l1 : LinesOf (LabelIn cdpLabels (t :: ts)) (cdpLine env t).1 :=
      lines_mono (fun y hy => labelIn_mono (fun u hu => by rw [List.mem_singleton.mp hu]; exact List.mem_cons_self) hy)
        (cdp_line_lines h6 hn (hp t List.mem_cons_self))
    unfold cdpLines
    split
    · exact lines_append l1 (lines_mono (fun y hy => labelIn_mono (fun u hu => List.mem_cons_of_mem _ hu) hy)
        (ih (fun u hu => hp u (List.mem_cons_of_mem _ hu))))
    · exact l1

end Ladvd.Props
