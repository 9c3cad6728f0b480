import Verif.Spec.Title
import Verif.Props.Text
import Verif.Lemmas.Parent
/-!
# Lemmas on process titles
-/

namespace Ladvd
open Ladvd.Spec Ladvd.Props

/-! ## Strings in memory -/

theorem strAt_of {mem : Bytes} {p : Nat} (h : IsString mem p) : ∃ s, strAt mem p = .ok s ∧ p + s.length < mem.length ∧
    ∀ a, p ≤ a → a ≤ p + s.length → Within mem p a := by
  obtain ⟨a, hpa, ha⟩ := h
  have hm : (0 : UInt8) ∈ mem.drop p := by
    rw [List.mem_iff_getElem?]
    exact ⟨a - p, by rw [List.getElem?_drop, show p + (a - p) = a by omega]; exact ha⟩
  refine ⟨cstr (mem.drop p), by rw [strAt, if_pos hm], ?_, ?_⟩
  · have : (cstr (mem.drop p)).length < (mem.drop p).length := by
      have h1 := List.takeWhile_append_dropWhile (p := fun b : UInt8 => decide (b ≠ 0)) (l := mem.drop p)
      have h2 : (mem.drop p).dropWhile (fun b : UInt8 => decide (b ≠ 0)) ≠ [] := by
        intro e
        rw [e, List.append_nil] at h1
        rw [← h1] at hm
        exact cstr_ne_zero _ 0 hm rfl
      have h3 := congrArg List.length h1
      rw [List.length_append] at h3
      have := List.length_pos_iff.2 h2
      unfold cstr
      omega
    rw [List.length_drop] at this
    omega
  · intro x hpx hx
    refine ⟨hpx, fun b hpb hb => ?_⟩
    have h1 : (mem.drop p)[b - p]? = some ((cstr (mem.drop p))[b - p]'(by omega)) := by
      have hpre : cstr (mem.drop p) <+: mem.drop p := List.takeWhile_prefix _
      obtain ⟨t, ht⟩ := hpre
      have : (cstr (mem.drop p) ++ t)[b - p]? = (mem.drop p)[b - p]? := by rw [ht]
      rw [← this, List.getElem?_append_left (by omega), List.getElem?_eq_getElem]
    rw [List.getElem?_drop, show p + (b - p) = b by omega] at h1
    rw [h1]
    intro e
    injection e with e
    exact cstr_ne_zero _ _ (List.getElem_mem _) e

/-- All of `start … last` belongs to strings of the list, and is followed by nothing else. -/
def Covered (mem : Bytes) (ps : List Nat) (start last : Nat) : Prop :=
  start ≤ last ∧ last < mem.length ∧ ∀ a, start ≤ a → a ≤ last → ∃ p ∈ ps, Within mem p a

theorem Covered.mono {mem : Bytes} {ps qs : List Nat} {start last : Nat} (h : ∀ p ∈ ps, p ∈ qs) (hc : Covered mem ps start last) :
    Covered mem qs start last :=
  ⟨hc.1, hc.2.1, fun a h1 h2 => let ⟨p, hp, w⟩ := hc.2.2 a h1 h2; ⟨p, h p hp, w⟩⟩

theorem Covered.extend {mem : Bytes} {ps : List Nat} {start last p : Nat} {s : Bytes} (hc : Covered mem ps start last) (hp : last + 1 = p)
    (hl : p + s.length < mem.length) (hw : ∀ a, p ≤ a → a ≤ p + s.length → Within mem p a) (hm : p ∈ ps) :
    Covered mem ps start (p + s.length) := by
  obtain ⟨h1, h2, h3⟩ := hc
  refine ⟨by omega, hl, fun a ha1 ha2 => ?_⟩
  by_cases h : a ≤ last
  · exact h3 a ha1 h
  · exact ⟨p, hm, hw a (by omega) ha2⟩

theorem lastArg_some {mem : Bytes} {all : List Nat} {start : Nat} : ∀ (ps : List Nat) (last : Nat), (∀ p ∈ ps, IsString mem p ∧ p ∈ all) →
    Covered mem all start last → ∃ l, lastArg mem ps (some last) = .ok (some l) ∧ Covered mem all start l
  | [], last, _, hc => ⟨last, rfl, hc⟩
  | p :: ps, last, hs, hc => by
    have ih := fun l => lastArg_some (mem := mem) (all := all) (start := start) ps l (fun q hq => hs q (List.mem_cons_of_mem _ hq))
    obtain ⟨s, hp, hl, hw⟩ := strAt_of (hs p List.mem_cons_self).1
    rw [lastArg]
    by_cases h : last + 1 = p
    · rw [if_pos (.inr (by simpa using h)), hp, Res.bind_ok]
      exact ih _ (hc.extend h hl hw (hs p List.mem_cons_self).2)
    · rw [if_neg (by simpa using h)]
      exact ih _ hc

theorem lastArg_le (mem : Bytes) : ∀ (ps : List Nat) (last l : Nat), lastArg mem ps (some last) = .ok (some l) → last ≤ l
  | [], last, l, h => by injection h with h; injection h with h; omega
  | p :: ps, last, l, h => by
    rw [lastArg] at h
    split at h
    · next hp =>
      have hp : last + 1 = p := by simpa using hp
      cases hs : strAt mem p with
      | ok s => rw [hs] at h; have := lastArg_le mem ps _ l h; omega
      | _ => rw [hs] at h; cases h
    · exact lastArg_le mem ps last l h

theorem lastEnv_some {mem : Bytes} {all : List Nat} {start : Nat} : ∀ (ps : List Nat) (last : Nat), (∀ p ∈ ps, IsString mem p ∧ p ∈ all) →
    Covered mem all start last → ∃ l, lastEnv mem ps last = .ok l ∧ last ≤ l ∧ Covered mem all start l
  | [], last, _, hc => ⟨last, rfl, Nat.le_refl _, hc⟩
  | p :: ps, last, hs, hc => by
    have ih := fun l => lastEnv_some (mem := mem) (all := all) (start := start) ps l (fun q hq => hs q (List.mem_cons_of_mem _ hq))
    obtain ⟨s, hp, hl, hw⟩ := strAt_of (hs p List.mem_cons_self).1
    rw [lastEnv]
    by_cases h : last + 1 = p
    · rw [if_pos h, hp, Res.bind_ok]
      obtain ⟨l, h1, h2, h3⟩ := ih _ (hc.extend h hl hw (hs p List.mem_cons_self).2)
      exact ⟨l, h1, by omega, h3⟩
    · rw [if_neg h]
      exact ih _ hc

theorem dupAll_at {mem : Bytes} : ∀ (ps : List Nat), (∀ p ∈ ps, IsString mem p) →
    ∃ l, dupAll mem (ps.map .at) = .ok l ∧ ∀ mem', readAll mem' l = readAll mem (ps.map .at)
  | [], _ => ⟨[], rfl, fun _ => rfl⟩
  | p :: ps, hs => by
    obtain ⟨s, hp, -, -⟩ := strAt_of (hs p List.mem_cons_self)
    obtain ⟨l, hl, hr⟩ := dupAll_at ps (fun q hq => hs q (List.mem_cons_of_mem _ hq))
    refine ⟨.own s :: l, ?_, fun mem' => ?_⟩
    · rw [List.map_cons, dupAll]
      show (strAt mem p).bind _ = _
      rw [hp, Res.bind_ok, hl]
      rfl
    · show Res.ok s :: readAll mem' l = strAt mem p :: readAll mem (ps.map .at)
      rw [hr mem', hp]

/-! ## The title -/

/-- The text in `buf`. -/
theorem titleBuf_eq (name text : Bytes) (hn : ∀ c ∈ name, c ≠ 0) (ht : ∀ c ∈ text, c ≠ 0) :
    ∃ buf, titleBuf name text = .ok buf ∧ cstr buf = (name ++ lit ": " ++ text).take 1023 := by
  have hlit : lit ": " = [0x3a, 0x20] := by decide
  unfold titleBuf
  rw [hlit]
  obtain ⟨b, hb, hbe⟩ : ∃ b : Bytes, b.length = 1024 ∧ List.replicate 1024 0 = b := ⟨_, List.length_replicate, rfl⟩
  rw [hbe]
  clear hbe
  obtain ⟨N, hN⟩ : ∃ N, N = 1024 := ⟨_, rfl⟩
  rw [show (1023 : Nat) = N - 1 by omega]
  rw [← hN] at hb ⊢
  rw [C14_strlcpy b name N (by omega), if_neg (by omega)]
  simp only [Res.bind_eq, Res.bind_ok]
  obtain ⟨x, hx⟩ : ∃ x, x = name.take (N - 1) := ⟨_, rfl⟩
  obtain ⟨r, hr⟩ : ∃ r, r = b.drop (min name.length (N - 1) + 1) := ⟨_, rfl⟩
  rw [← hx, ← hr]
  have hxl : x.length = min name.length (N - 1) := by rw [hx, List.length_take]; omega
  have hrl : r.length = N - (x.length + 1) := by rw [hr, List.length_drop, hb, hxl]
  have hx0 : ∀ c ∈ x, c ≠ 0 := fun c hc => hn c (List.mem_of_mem_take (hx ▸ hc))
  have hdl : (x ++ [0] ++ r).length = N := by simp; omega
  rw [C14_strlcat (x ++ [0] ++ r) [0x3a, 0x20] N (by omega)]
  have hscan : ((x ++ [0] ++ r).take N).takeWhile (· ≠ 0) = x := by
    rw [List.take_of_length_le (by omega), List.append_assoc]
    exact cstr_line hx0
  simp only [Res.bind_ok]
  rw [hscan, if_neg (show ¬ x.length = N by omega)]
  have htake : (x ++ [0] ++ r).take x.length = x := by rw [List.append_assoc, List.take_left]
  rw [htake]
  by_cases hlen : x.length + 2 < N
  · have hxn : x = name := by rw [hx, List.take_of_length_le (by omega)]
    rw [if_pos (show x.length + ([0x3a, 0x20] : Bytes).length < N from hlen)]
    have hc2 : ([0x3a, 0x20] : Bytes).take (N - x.length - 1) = [0x3a, 0x20] := List.take_of_length_le (by simp; omega)
    rw [hc2]
    obtain ⟨y, hy⟩ : ∃ y, y = (x ++ [0] ++ r).drop (x.length + min ([0x3a, 0x20] : Bytes).length (N - x.length - 1) + 1) := ⟨_, rfl⟩
    rw [← hy]
    have hyl : y.length = N - (x.length + 3) := by rw [hy, List.length_drop, hdl]; simp; omega
    obtain ⟨v, hv⟩ : ∃ v, v = text.take (N - (x.length + [0x3a, (0x20 : UInt8)].length) - 1) := ⟨_, rfl⟩
    rw [← hv]
    have hvl : v.length ≤ N - (x.length + 2) - 1 := by rw [hv, List.length_take]; simp; omega
    have hv0 : ∀ c ∈ v, c ≠ 0 := fun c hc => ht c (List.mem_of_mem_take (hv ▸ hc))
    rw [wr_ok (by simp; omega)]
    refine ⟨_, rfl, ?_⟩
    have h1 : (x ++ [0x3a, 0x20] ++ [0] ++ y).take (x.length + [0x3a, (0x20 : UInt8)].length) = x ++ [0x3a, 0x20] := by
      rw [List.append_assoc, ← List.length_append, List.take_left]
    rw [h1]
    have h2 : ∀ z : Bytes, x ++ [0x3a, 0x20] ++ (v ++ [0]) ++ z = (x ++ [0x3a, 0x20] ++ v) ++ 0 :: z := by intro z; simp
    rw [h2, cstr_line]
    · rw [hxn, List.take_append, List.take_of_length_le (by simp [← hxn]; omega)]
      congr 1
      rw [hv, hxn]
      congr 1
      simp
      omega
    · intro c hc
      simp only [List.mem_append, List.mem_cons, List.not_mem_nil, or_false] at hc
      rcases hc with (hc | hc | hc) | hc
      · exact hx0 c hc
      · rw [hc]; decide
      · rw [hc]; decide
      · exact hv0 c hc
  · rw [if_neg (show ¬ x.length + ([0x3a, 0x20] : Bytes).length < N from hlen)]
    refine ⟨_, rfl, ?_⟩
    have h2 : ∀ z : Bytes, x ++ [0x3a, 0x20].take (N - x.length - 1) ++ [0] ++ z = (x ++ [0x3a, 0x20].take (N - x.length - 1)) ++ 0 :: z := by
      intro z; simp
    rw [h2, cstr_line]
    · rw [List.take_append, List.take_append, ← hx]
      have : text.take (N - 1 - (name ++ [0x3a, 0x20]).length) = [] := by
        rw [List.take_eq_nil_iff]; left; simp; omega
      rw [this, List.append_nil]
      congr 1
      by_cases h : name.length ≤ N - 1
      · congr 1; omega
      · rw [show N - x.length - 1 = 0 by omega, show N - 1 - name.length = 0 by omega]
    · intro c hc
      rcases List.mem_append.1 hc with hc | hc
      · exact hx0 c hc
      · have := List.mem_of_mem_take hc
        simp only [List.mem_cons, List.not_mem_nil, or_false] at this
        rcases this with e | e <;> rw [e] <;> decide

theorem strnvisLoop_plain (f : VisFlags) (siz : Nat) : ∀ (src out : Bytes) (i : Nat), (∀ c ∈ src, isvisible f c = true ∧ c ≠ 0x5c) →
    (strnvisLoop f siz src out i).1 = out ++ src.take (siz - 1 - out.length)
  | [], out, i, _ => by simp [strnvisLoop]
  | c :: src, out, i, h => by
    rw [strnvisLoop]
    have hc := h c List.mem_cons_self
    by_cases hl : out.length + 1 < siz
    · rw [if_pos hl, if_pos hc.1, if_neg (by simp [hc.2]), strnvisLoop_plain f siz src _ 1 (fun x hx => h x (List.mem_cons_of_mem _ hx))]
      obtain ⟨k, hk⟩ : ∃ k, siz - 1 - out.length = k + 1 := ⟨siz - 1 - out.length - 1, by omega⟩
      rw [hk, List.take_succ_cons, List.append_assoc]
      simp only [List.length_append, List.length_cons, List.length_nil]
      rw [show siz - 1 - (out.length + (0 + 1)) = k by omega]
      rfl
    · rw [if_neg hl, show siz - 1 - out.length = 0 by omega]
      simp

theorem vis_title_printable (c n : UInt8) (hc : c ≠ 0) : ∀ b ∈ vis TITLE_FLAGS c n, printable b = true := by
  have h1 : vis TITLE_FLAGS c n = vis TITLE_FLAGS c 0 := by
    have : cstyleEsc c n = cstyleEsc c 0 := by
      unfold cstyleEsc
      rw [show (c == 0) = false from by simpa using hc]
      rfl
    unfold vis
    rw [this]
  rw [h1]
  have := forall_uint8 (P := fun c => c ≠ 0 → (vis TITLE_FLAGS c 0).all printable = true) (by decide +kernel) c hc
  simpa using this

theorem visible_title (c : UInt8) (hc : isvisible TITLE_FLAGS c = true) : printable c = true :=
  forall_uint8 (P := fun c => isvisible TITLE_FLAGS c = true → printable c = true) (by decide +kernel) c hc

theorem plain_visible (c : UInt8) (hc : printable c = true) : isvisible TITLE_FLAGS c = true :=
  forall_uint8 (P := fun c => printable c = true → isvisible TITLE_FLAGS c = true) (by decide +kernel) c hc

theorem strnvisLoop_title (siz : Nat) : ∀ (src out : Bytes) (i : Nat), (∀ c ∈ src, c ≠ 0) → (∀ b ∈ out, printable b = true) →
    ∀ b ∈ (strnvisLoop TITLE_FLAGS siz src out i).1, printable b = true
  | [], out, i, _, ho => ho
  | c :: src, out, i, h, ho => by
    have hs := fun x hx => h x (List.mem_cons_of_mem c hx)
    have step : ∀ e : Bytes, (∀ b ∈ e, printable b = true) → ∀ b ∈ out ++ e, printable b = true := by
      intro e he b hb
      rcases List.mem_append.1 hb with hb | hb
      · exact ho b hb
      · exact he b hb
    rw [strnvisLoop]
    dsimp only
    split
    · split
      · next hv =>
        have hv := visible_title c hv
        split
        · split
          · apply strnvisLoop_title siz src _ _ hs (step _ _)
            intro b hb
            simp only [List.mem_cons, List.not_mem_nil, or_false] at hb
            rcases hb with e | e
            · rw [e]; exact hv
            · rw [e]; decide
          · exact ho
        · apply strnvisLoop_title siz src _ _ hs (step _ _)
          intro b hb
          rw [List.mem_singleton.1 hb]; exact hv
      · split
        · exact strnvisLoop_title siz src _ _ hs (step _ (vis_title_printable c _ (h c List.mem_cons_self)))
        · exact ho
    · exact ho

/-- The title made of a program name and a text. -/
def titleText (name text : Bytes) : Bytes := (strnvis TITLE_FLAGS ((name ++ lit ": " ++ text).take 1023) 1024).1

theorem titleText_plain {name text : Bytes} (h : Plain (name ++ lit ": " ++ text)) : titleText name text = (name ++ lit ": " ++ text).take 1023 := by
  unfold titleText strnvis
  dsimp only
  rw [strnvisLoop_plain _ _ _ _ _ (fun c hc => ?_)]
  · rw [List.nil_append, List.length_nil, List.take_take]
    congr 1
  · have := h c (List.mem_of_mem_take hc)
    exact ⟨plain_visible c this.1, this.2⟩

theorem titleText_printable {name text : Bytes} (hn : ∀ c ∈ name, c ≠ 0) (ht : ∀ c ∈ text, c ≠ 0) : ∀ b ∈ titleText name text, printable b = true := by
  unfold titleText strnvis
  dsimp only
  refine strnvisLoop_title _ _ _ _ (fun c hc => ?_) (fun _ h => absurd h List.not_mem_nil)
  have := List.mem_of_mem_take hc
  simp only [List.mem_append] at this
  rcases this with (h | h) | h
  · exact hn c h
  · rw [show lit ": " = [0x3a, 0x20] by decide] at h
    simp only [List.mem_cons, List.not_mem_nil, or_false] at h
    rcases h with e | e <;> rw [e] <;> decide
  · exact ht c h

/-- What `setproctitle` leaves in memory. -/
theorem setTitle_eq (name text : Bytes) (hn : ∀ c ∈ name, c ≠ 0) (ht : ∀ c ∈ text, c ≠ 0) (pr : Proc) (h0 : pr.len ≠ 0)
    (hl : pr.start + pr.len ≤ pr.mem.length) :
    setTitle name text pr = .ok { pr with mem := pr.mem.take pr.start ++ ((titleText name text).take (pr.len - 1) ++
      List.replicate (pr.len - min (titleText name text).length (pr.len - 1)) 0) ++ pr.mem.drop (pr.start + pr.len) } := by
  obtain ⟨buf, hb, hcb⟩ := titleBuf_eq name text hn ht
  unfold setTitle
  rw [if_neg h0, hb]
  simp only [Res.bind_eq, Res.bind_ok]
  rw [hcb]
  show (strlcpy (pr.mem.drop pr.start) (titleText name text) pr.len).bind _ = _
  obtain ⟨t, htt⟩ : ∃ t, t = titleText name text := ⟨_, rfl⟩
  rw [← htt, C14_strlcpy _ _ _ (by rw [List.length_drop]; omega), if_neg h0]
  simp only [Res.bind_ok]
  by_cases h : t.length < pr.len
  · rw [if_pos h]
    have h1 : t.take (pr.len - 1) = t := List.take_of_length_le (by omega)
    rw [h1, show min t.length (pr.len - 1) = t.length by omega]
    unfold pad
    have hml : (pr.mem.take pr.start ++ (t ++ [0] ++ (pr.mem.drop pr.start).drop (t.length + 1))).length = pr.mem.length := by
      simp; omega
    rw [if_pos (by omega)]
    simp only [Res.bind_ok]
    congr 2
    obtain ⟨A, hA⟩ : ∃ A, A = pr.mem.take pr.start := ⟨_, rfl⟩
    have hAl : A.length = pr.start := by rw [hA, List.length_take]; omega
    rw [← hA] at hml ⊢
    have e1 : (A ++ (t ++ [0] ++ (pr.mem.drop pr.start).drop (t.length + 1))).take (pr.start + t.length) = A ++ t := by
      rw [← hAl, ← List.length_append, List.append_assoc, ← List.append_assoc, List.take_left]
    have e2 : (A ++ (t ++ [0] ++ (pr.mem.drop pr.start).drop (t.length + 1))).drop (pr.start + t.length + (pr.len - t.length)) =
        pr.mem.drop (pr.start + pr.len) := by
      rw [show A ++ (t ++ [0] ++ (pr.mem.drop pr.start).drop (t.length + 1)) = (A ++ t ++ [0]) ++ (pr.mem.drop pr.start).drop (t.length + 1) by simp,
        List.drop_append, List.drop_of_length_le (by simp; omega), List.nil_append, List.drop_drop, List.drop_drop]
      congr 1
      simp
      omega
    rw [e1, e2]
    simp
  · rw [if_neg h]
    simp only [Res.pure_eq, Res.bind_ok]
    congr 2
    rw [show min t.length (pr.len - 1) = pr.len - 1 by omega, show pr.len - (pr.len - 1) = 1 by omega, List.drop_drop]
    rw [show pr.start + (pr.len - 1 + 1) = pr.start + pr.len by omega]
    simp

end Ladvd
