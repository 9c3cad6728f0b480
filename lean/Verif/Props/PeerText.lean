import Verif.Props.Decode
import Verif.Props.Text
/-!
# C12 for whole frames: every text learnt from any received frame is sanitised
-/

namespace Ladvd.Props

open Spec

/-- Capability letters. -/
def CapText (t : Bytes) : Prop := ∀ b ∈ t, b ∈ lit "rBHRSWCTO"

/-- Decimal digits. -/
def Digits (t : Bytes) : Prop := ∀ b ∈ t, 0x30 ≤ b ∧ b ≤ 0x39

/-- All texts remembered about a peer are safe to display; capabilities are letters and the VLAN is a number. -/
def PeerSafe (p : Peer) : Prop :=
  (∀ t ∈ p.hostname, SafeText t) ∧ (∀ t ∈ p.portname, SafeText t) ∧ (∀ t ∈ p.portdescr, SafeText t) ∧
  (∀ t ∈ p.cap, CapText t) ∧ (∀ t ∈ p.vlan, Digits t)

theorem shown_safe (v : Bytes) : SafeText (shown v) := by
  have := C12_copy_safe v
  rwa [tlvStrCopyVal_eq] at this

theorem shownGlob_safe (v : Bytes) : SafeText (shownGlob v) := by
  have := C12_value_safe v
  rw [tlvValueStrVal_eq] at this
  intro c hc
  exact Or.inl (this c hc).1

theorem capLetters_safe (n : Nat) : CapText (capLetters n) := by
  intro c hc
  unfold capLetters at hc
  simp only [List.mem_filterMap] at hc
  obtain ⟨p, hp, he⟩ := hc
  split at he
  · simp only [Option.some.injEq] at he
    subst he
    rename_i hb
    clear hb
    revert p
    decide
  · cases he

theorem digit_safe (k : Nat) (h : k < 10) : 0x30 ≤ UInt8.ofNat (48 + k) ∧ UInt8.ofNat (48 + k) ≤ 0x39 := by
  have : ∀ k : Fin 10, 0x30 ≤ UInt8.ofNat (48 + k.val) ∧ UInt8.ofNat (48 + k.val) ≤ 0x39 := by decide
  exact this ⟨k, h⟩

theorem decimal_safe (n : Nat) : Digits (decimal n) := by
  intro c hc
  have : ∃ k, k < 10 ∧ c = UInt8.ofNat (48 + k) := by
    unfold decimal at hc
    dsimp only at hc
    split at hc
    · simp only [List.mem_cons, List.not_mem_nil, or_false] at hc
      exact ⟨_, Nat.mod_lt _ (by omega), hc⟩
    split at hc
    · simp only [List.mem_cons, List.not_mem_nil, or_false] at hc
      rcases hc with hc | hc <;> exact ⟨_, Nat.mod_lt _ (by omega), hc⟩
    split at hc
    · simp only [List.mem_cons, List.not_mem_nil, or_false] at hc
      rcases hc with hc | hc | hc <;> exact ⟨_, Nat.mod_lt _ (by omega), hc⟩
    split at hc
    · simp only [List.mem_cons, List.not_mem_nil, or_false] at hc
      rcases hc with hc | hc | hc | hc <;> exact ⟨_, Nat.mod_lt _ (by omega), hc⟩
    · simp only [List.mem_cons, List.not_mem_nil, or_false] at hc
      rcases hc with hc | hc | hc | hc | hc <;> exact ⟨_, Nat.mod_lt _ (by omega), hc⟩
  obtain ⟨k, hk, rfl⟩ := this
  exact digit_safe k hk

theorem first_safe {P : Bytes → Prop} {o : Option Bytes} {v : Bytes} (h : ∀ t ∈ o, P t) (hv : P v) : ∀ t ∈ first o v, P t := by
  cases o with
  | none => intro t ht; simp only [first, Option.none_or, Option.mem_def, Option.some.injEq] at ht; subst ht; exact hv
  | some x => simpa [first] using h

theorem showOr_safe {print : Bool} {txt : Bytes} {g : Peer → Peer} {s : Msg} (h : PeerSafe s.peer)
    (hg : PeerSafe (g s.peer)) : PeerSafe (showOr print txt g s).peer := by
  unfold showOr; cases print <;> assumption

theorem addrMeaning_safe {print : Bool} {s s' : Msg} {e : AddrEntry} (h : PeerSafe s.peer)
    (hm : addrMeaning print s e = some s') : PeerSafe s'.peer := by
  unfold addrMeaning at hm
  repeat' split at hm
  all_goals first
    | (cases hm; done)
    | (simp only [Option.some.injEq] at hm; subst hm; first | exact h | exact showOr_safe h h)

theorem foldlM_inv {α β : Type} {P : β → Prop} {g : β → α → Option β}
    (hg : ∀ s a s', P s → g s a = some s' → P s') (l : List α) :
    ∀ {s s' : β}, P s → l.foldlM g s = some s' → P s' := by
  induction l with
  | nil => intro s s' hs h; simp only [List.foldlM_nil, Option.pure_def, Option.some.injEq] at h; exact h ▸ hs
  | cons a l ih =>
    intro s s' hs h
    simp only [List.foldlM_cons, Option.bind_eq_bind, Option.bind_eq_some_iff] at h
    obtain ⟨s2, h2, h3⟩ := h
    exact ih (hg _ _ _ hs h2) h3

theorem cdpMeaning_safe (print : Bool) (s : Msg) (t : Tlv) (s' : Msg) (h : PeerSafe s.peer)
    (hm : cdpMeaning print s t = some s') : PeerSafe s'.peer := by
  obtain ⟨a, b, c, d, e⟩ := h
  have h' : PeerSafe s.peer := ⟨a, b, c, d, e⟩
  unfold cdpMeaning at hm
  dsimp only at hm
  repeat' split at hm
  all_goals first
    | (cases hm; done)
    | (simp only [Option.bind_eq_bind, Option.bind_eq_some_iff] at hm
       obtain ⟨es, _, h3⟩ := hm
       exact foldlM_inv (P := fun s => PeerSafe s.peer) (fun _ _ _ => addrMeaning_safe) es h' h3)
    | (simp only [Option.some.injEq] at hm; subst hm
       first
       | exact h'
       | exact showOr_safe h' ⟨first_safe a (shown_safe _), b, c, d, e⟩
       | exact showOr_safe h' ⟨a, first_safe b (shown_safe _), c, d, e⟩
       | exact showOr_safe h' ⟨a, b, c, first_safe d (capLetters_safe _), e⟩
       | exact showOr_safe h' ⟨a, b, c, d, first_safe e (decimal_safe _)⟩)

theorem fdpMeaning_safe (s : Msg) (t : Tlv) (h : PeerSafe s.peer) : PeerSafe (fdpMeaning s t).peer := by
  obtain ⟨a, b, c, d, e⟩ := h
  unfold fdpMeaning
  split
  · exact ⟨first_safe a (shownGlob_safe _), b, c, d, e⟩
  · exact ⟨a, first_safe b (shownGlob_safe _), c, d, e⟩
  · exact ⟨a, b, c, first_safe d (capLetters_safe _), e⟩
  · exact ⟨a, b, c, d, e⟩

theorem edpMeaning_safe (s : Msg) (t : UInt8 × Tlv) (h : PeerSafe s.peer) : PeerSafe (edpMeaning s t).peer := by
  obtain ⟨a, b, c, d, e⟩ := h
  unfold edpMeaning
  split
  · exact ⟨first_safe a (shownGlob_safe _), b, c, d, e⟩
  · exact ⟨a, b, c, d, e⟩

theorem foldl_inv {α β : Type} {P : β → Prop} {g : β → α → β} (hg : ∀ s a, P s → P (g s a)) (l : List α) :
    ∀ {s : β}, P s → P (l.foldl g s) := by
  induction l with
  | nil => intro s hs; exact hs
  | cons a l ih => intro s hs; exact ih (hg _ _ hs)

theorem portMeaning_safe {print : Bool} {s s' : Msg} {v : Bytes} (h : PeerSafe s.peer)
    (hm : portMeaning print s v = some s') : PeerSafe s'.peer := by
  obtain ⟨a, b, c, d, e⟩ := h
  have h' : PeerSafe s.peer := ⟨a, b, c, d, e⟩
  unfold portMeaning at hm
  repeat' split at hm
  all_goals first
    | (cases hm; done)
    | (simp only [Option.some.injEq] at hm; subst hm
       first
       | exact h'
       | exact showOr_safe h' ⟨a, first_safe b (shown_safe _), c, d, e⟩
       | (rw [showAddr_hostname]; exact h'))

theorem mgmtMeaning_safe {print : Bool} {s s' : Msg} {v : Bytes} (h : PeerSafe s.peer)
    (hm : mgmtMeaning print s v = some s') : PeerSafe s'.peer := by
  unfold mgmtMeaning at hm
  dsimp only at hm
  repeat' split at hm
  all_goals first
    | (cases hm; done)
    | (simp only [Option.some.injEq] at hm; subst hm
       first
       | exact h
       | exact showOr_safe h h)

theorem orgMeaning_safe {print : Bool} {s s' : Msg} {v : Bytes} (h : PeerSafe s.peer)
    (hm : orgMeaning print s v = some s') : PeerSafe s'.peer := by
  obtain ⟨a, b, c, d, e⟩ := h
  have h' : PeerSafe s.peer := ⟨a, b, c, d, e⟩
  unfold orgMeaning at hm
  repeat' split at hm
  all_goals first
    | (cases hm; done)
    | (simp only [Option.some.injEq] at hm; subst hm
       first
       | exact h'
       | exact showOr_safe h' ⟨a, b, c, d, first_safe e (decimal_safe _)⟩)

theorem lldpMeaning_safe (print : Bool) (s : Msg) (t : Tlv) (s' : Msg) (h : PeerSafe s.peer)
    (hm : lldpMeaning print s t = some s') : PeerSafe s'.peer := by
  obtain ⟨a, b, c, d, e⟩ := h
  have h' : PeerSafe s.peer := ⟨a, b, c, d, e⟩
  unfold lldpMeaning at hm
  dsimp only at hm
  split at hm
  · cases hm
  split at hm
  · split at hm
    · cases hm
    split at hm
    · cases hm
    simp only [Option.some.injEq] at hm
    subst hm
    exact ⟨by intro t ht; simp only [Option.mem_def, Option.some.injEq] at ht; subst ht; exact shown_safe _, b, c, d, e⟩
  split at hm
  · simp only [Option.some.injEq] at hm; subst hm
    exact showOr_safe h' ⟨a, b, first_safe c (shown_safe _), d, e⟩
  split at hm
  · simp only [Option.some.injEq] at hm; subst hm
    split <;> exact h'
  split at hm
  · split at hm
    · cases hm
    split at hm
    · cases hm
    split at hm
    · cases hm
    simp only [Option.some.injEq] at hm; subst hm
    split
    · exact h'
    · exact ⟨a, b, c, first_safe d (capLetters_safe _), e⟩
  split at hm
  · exact mgmtMeaning_safe h' hm
  split at hm
  · exact orgMeaning_safe h' hm
  split at hm
  · cases hm
  · simp only [Option.some.injEq] at hm; subst hm; exact h'

/-- Whatever frame any of the decoders accepts, every text in the resulting peer record is safe.  `pad` is the
memory behind the frame (see C07). -/
theorem C12_peer_safe (p : Proto) (print : Bool) (f pad : Bytes) (s s' : Msg) (n : Nat) (h1 : 26 ≤ f.length)
    (h2 : f.length ≤ 1518) (hp : 2 ≤ pad.length) (hs : PeerSafe s.peer)
    (h : p.decode print (f ++ pad) f.length s = .ok (s', n)) : PeerSafe s'.peer := by
  have hc : ∀ s', cdpDecode print (f ++ pad) f.length s = .ok (s', n) → PeerSafe s'.peer := by
    intro s' h
    obtain ⟨_, pl, _, ver, ttl, k0, k1, ts, _, _, _, hm⟩ := (C36_cdp print f pad s s' n h1 h2).mp h
    exact foldlM_inv (P := fun s => PeerSafe s.peer) (cdpMeaning_safe print) ts hs hm
  cases p with
  | lldp =>
    obtain ⟨pdu, tr, _, ⟨ch, po, t0, t1, ts, s1, s2, _, _, m1, m2, m3⟩, _⟩ :=
      (C09_accept_iff print f pad s s' n (by omega) h2 hp).mp h
    have a1 : PeerSafe s1.peer := by rw [chassisMeaning_peer m1]; exact hs
    have a2 := portMeaning_safe a1 m2
    exact foldlM_inv (P := fun s => PeerSafe s.peer) (lldpMeaning_safe print) ts a2 m3
  | cdp => exact hc s' h
  | cdp1 => exact hc s' h
  | fdp =>
    obtain ⟨_, pl, _, ttl, k0, k1, ts, _, _, rfl⟩ := (C36_fdp f pad s s' n h1 h2).mp h
    exact foldl_inv (P := fun s : Msg => PeerSafe s.peer) fdpMeaning_safe ts hs
  | edp =>
    obtain ⟨_, pl, _, hdr, ts, _, _, _, rfl⟩ := (C36_edp f pad s s' n h1 h2).mp h
    exact foldl_inv (P := fun s : Msg => PeerSafe s.peer) edpMeaning_safe ts hs
  | ndp =>
    obtain ⟨rfl, _⟩ := (C36_ndp f pad s s' n h1 h2).mp h
    exact hs

/-- A CDP frame whose host name carries terminal escape sequences. -/
example : PeerSafe ({} : Peer) ∧
    Proto.cdp.decode false (cdpHead ++ [2, 9, 0, 0] ++ cdpEnc [(1, [0x1b, 0x5b, 0x32, 0x4a])] ++ [0, 0]) 34 {} =
      .ok ({ proto := 1, ttl := 9, peer := { hostname := some (lit "\\033[2J") } }, 34) :=
  ⟨by simp [PeerSafe], by decide +kernel⟩

end Ladvd.Props
