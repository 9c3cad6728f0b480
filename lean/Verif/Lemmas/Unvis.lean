import Verif.Model.Strvis
import Verif.Spec.Unvis
import Verif.Lemmas.Vis
/-!
# Every item of `vis` reads back as the byte it was made from
-/

namespace Ladvd

open Spec

theorem strvis_go (f : VisFlags) (src : Bytes) : ∀ dst, strvis.go f src dst = dst ++ visAll f src := by
  induction src with
  | nil => intro dst; simp [strvis.go, visAll]
  | cons c src ih => intro dst; simp [strvis.go, visAll, ih]

theorem strvis_eq (f : VisFlags) (src : Bytes) : strvis f src = (visAll f src, visLen f src) := by
  simp [strvis, strvis_go, visAll_length]

theorem strvisxLoop_eq (f : VisFlags) (src : Bytes) : ∀ dst, strvisxLoop f src dst = dst ++ visAll f src := by
  intro dst
  fun_induction strvisxLoop f src dst with
  | case1 => simp [visAll]
  | case2 => simp [visAll, nextc]
  | case3 _ _ _ _ ih => rw [ih]; simp [visAll, nextc]

theorem strvisx_eq (f : VisFlags) (src : Bytes) : strvisx f src = (visAll f src, visLen f src) := by
  simp [strvisx, strvisxLoop_eq, visAll_length]

/-- The first character of an item is an octal digit exactly when the byte is one. -/
theorem vis_head (f : VisFlags) (hf : f.noslash = false) (c n : UInt8) (r : Bytes) :
    octDigit ((vis f c n ++ r).headD 0) = octDigit c := by
  by_cases hv : isvisible f c = true
  · rw [vis_visible f c n hv]; simp
  · have hd : octDigit c = false := by
      rw [Bool.eq_false_iff]
      intro hd
      apply hv
      revert hd
      cases f with
      | mk a b d e g h i j =>
        have key : ∀ j : Bool, ∀ k : Fin 256, octDigit (UInt8.ofNat k) = true →
            ((UInt8.ofNat k) < 0x80 && (!isglob (UInt8.ofNat k) || !j) && isgraph (UInt8.ofNat k)) = true := by
          decide +kernel
        intro hd
        have := forall_uint8 (P := fun c => octDigit c = true → (c < 0x80 && (!isglob c || !j) && isgraph c) = true)
          (key j) c hd
        unfold isvisible
        simp only [this, Bool.true_or]
    rw [hd]
    have hh : ∃ t, vis f c n = 0x5c :: t := by
      unfold vis
      rw [if_neg hv]
      split
      · rename_i e he
        split at he
        · unfold cstyleEsc at he
          repeat' split at he
          all_goals first | (cases he; exact ⟨_, rfl⟩) | simp at he
        · simp at he
      · split
        · exact ⟨_, rfl⟩
        · rw [hf]; exact ⟨_, rfl⟩
    obtain ⟨t, ht⟩ := hh
    rw [ht]
    show octDigit 0x5c = false
    decide

theorem unvis_octal (c : UInt8) (r : Bytes) : unvisItem (octalEsc c ++ r) = some (c, r) := by
  have key : ∀ k : Fin 256, let c := UInt8.ofNat k
      octDigit (UInt8.ofNat (c.toNat / 64 % 8) + 0x30) = true ∧
      octDigit (UInt8.ofNat (c.toNat / 8 % 8) + 0x30) = true ∧
      octDigit (UInt8.ofNat (c.toNat % 8) + 0x30) = true ∧
      ((((UInt8.ofNat (c.toNat / 64 % 8) + 0x30).toNat - 0x30) * 8 + ((UInt8.ofNat (c.toNat / 8 % 8) + 0x30).toNat - 0x30)) * 8 +
        ((UInt8.ofNat (c.toNat % 8) + 0x30).toNat - 0x30)) = c.toNat := by decide +kernel
  have h := forall_uint8 (P := fun c =>
      octDigit (UInt8.ofNat (c.toNat / 64 % 8) + 0x30) = true ∧
      octDigit (UInt8.ofNat (c.toNat / 8 % 8) + 0x30) = true ∧
      octDigit (UInt8.ofNat (c.toNat % 8) + 0x30) = true ∧
      ((((UInt8.ofNat (c.toNat / 64 % 8) + 0x30).toNat - 0x30) * 8 + ((UInt8.ofNat (c.toNat / 8 % 8) + 0x30).toNat - 0x30)) * 8 +
        ((UInt8.ofNat (c.toNat % 8) + 0x30).toNat - 0x30)) = c.toNat) key c
  obtain ⟨h1, h2, h3, h4⟩ := h
  have hlt := c.toNat_lt
  simp only [octalEsc, List.cons_append, List.nil_append, unvisItem, ne_eq, not_true_eq_false, if_false, h1, if_true,
    octDigits, h2, h3, h4]
  rw [if_pos (by omega)]
  simp

theorem unvis_cstyle (c n : UInt8) (e r : Bytes) (h : cstyleEsc c n = some e)
    (hn : octDigit n = octDigit (r.headD 0)) : unvisItem (e ++ r) = some (c, r) := by
  unfold cstyleEsc at h
  by_cases hz : c = 0
  · subst hz
    by_cases ho : octDigit n = true
    · have he : e = [0x5c, 0x30, 0x30, 0x30] := by
        have : (0x30 ≤ n && n ≤ 0x37) = true := ho
        rw [this] at h
        have := Option.some.inj h
        exact this.symm
      subst he
      simp [unvisItem, octDigits, octDigit]
    · have he : e = [0x5c, 0x30] := by
        have : (0x30 ≤ n && n ≤ 0x37) = false := by
          have : octDigit n = false := by simpa using ho
          exact this
        rw [this] at h
        have := Option.some.inj h
        exact this.symm
      subst he
      have hr : octDigit (r.headD 0) = false := by rw [← hn]; simpa using ho
      cases r with
      | nil => simp [unvisItem, octDigits, octDigit]
      | cons a r =>
        have hr : octDigit a = false := hr
        have h0 : octDigit 0x30 = true := by decide
        simp [unvisItem, octDigits, h0, hr]
  · have hz' : (c == 0) = false := by simpa using hz
    rw [hz'] at h
    simp only [beq_iff_eq, Bool.false_eq_true, if_false] at h
    repeat' split at h
    all_goals first
      | (simp at h; done)
      | (rename_i hc; subst hc; cases h; simp [unvisItem, octDigit, letterEsc])

theorem not_visible_small (f : VisFlags) (c : UInt8) (hv : isvisible f c = false) (hg : (f.glob && isglob c) = false)
    (hs : (c &&& 0x7f == 0x20) = false) (hc : c < 0x80) : iscntrl (c &&& 0x7f) = true := by
  have hg' : (!isglob c || !f.glob) = true := by
    revert hg; cases f.glob <;> cases isglob c <;> simp
  unfold isvisible at hv
  rw [hg'] at hv
  simp only [Bool.or_eq_false_iff] at hv
  have hv := hv.1.1.1.1
  have key : ∀ k : Fin 256, (UInt8.ofNat k < 0x80 && true && isgraph (UInt8.ofNat k)) = false →
      (UInt8.ofNat k &&& 0x7f == 0x20) = false → UInt8.ofNat k < 0x80 → iscntrl (UInt8.ofNat k &&& 0x7f) = true := by
    decide +kernel
  exact forall_uint8 (P := fun c => (c < 0x80 && true && isgraph c) = false →
      (c &&& 0x7f == 0x20) = false → c < 0x80 → iscntrl (c &&& 0x7f) = true) key c hv hs hc

theorem unvis_meta (c : UInt8) (r : Bytes) (hc : c ≥ 0x80 ∨ iscntrl (c &&& 0x7f) = true) :
    unvisItem ([0x5c] ++ (if c ≥ 0x80 then [0x4d] else []) ++
      (if iscntrl (c &&& 0x7f) then 0x5e :: (if c &&& 0x7f == 0x7f then [0x3f] else [(c &&& 0x7f) + 0x40])
       else [0x2d, c &&& 0x7f]) ++ r) = some (c, r) := by
  have key : ∀ k : Fin 256, let c := UInt8.ofNat k
      (c < 0x80 → iscntrl (c &&& 0x7f) = true → (c &&& 0x7f) ≠ 0x7f → caret ((c &&& 0x7f) + 0x40) = some c) ∧
      (c < 0x80 → (c &&& 0x7f) = 0x7f → caret 0x3f = some c) ∧
      (c ≥ 0x80 → iscntrl (c &&& 0x7f) = true → (c &&& 0x7f) ≠ 0x7f →
        ∃ b, caret ((c &&& 0x7f) + 0x40) = some b ∧ b + 0x80 = c) ∧
      (c ≥ 0x80 → (c &&& 0x7f) = 0x7f → (0x7f : UInt8) + 0x80 = c) ∧
      (c ≥ 0x80 → (c &&& 0x7f) < 0x80 ∧ (c &&& 0x7f) + 0x80 = c) := by
    intro k c
    refine ⟨?_, ?_, ?_, ?_, ?_⟩
    · revert k; decide +kernel
    · revert k; decide +kernel
    · intro h1 h2 h3
      have : ∀ k : Fin 256, UInt8.ofNat k ≥ 0x80 → iscntrl (UInt8.ofNat k &&& 0x7f) = true →
          (UInt8.ofNat k &&& 0x7f) ≠ 0x7f →
          caret ((UInt8.ofNat k &&& 0x7f) + 0x40) = some (UInt8.ofNat k &&& 0x7f) ∧
          (UInt8.ofNat k &&& 0x7f) + 0x80 = UInt8.ofNat k := by decide +kernel
      exact ⟨_, this k h1 h2 h3⟩
    · revert k; decide +kernel
    · revert k; decide +kernel
  have h := forall_uint8 (P := fun c =>
      (c < 0x80 → iscntrl (c &&& 0x7f) = true → (c &&& 0x7f) ≠ 0x7f → caret ((c &&& 0x7f) + 0x40) = some c) ∧
      (c < 0x80 → (c &&& 0x7f) = 0x7f → caret 0x3f = some c) ∧
      (c ≥ 0x80 → iscntrl (c &&& 0x7f) = true → (c &&& 0x7f) ≠ 0x7f →
        ∃ b, caret ((c &&& 0x7f) + 0x40) = some b ∧ b + 0x80 = c) ∧
      (c ≥ 0x80 → (c &&& 0x7f) = 0x7f → (0x7f : UInt8) + 0x80 = c) ∧
      (c ≥ 0x80 → (c &&& 0x7f) < 0x80 ∧ (c &&& 0x7f) + 0x80 = c)) key c
  obtain ⟨h1, h2, h3, h4, h5⟩ := h
  have o1 : octDigit 0x5e = false := by decide
  have o2 : octDigit 0x4d = false := by decide
  have hlt : ¬ c ≥ 0x80 → c < 0x80 := fun h => by simpa using h
  have hd7 : caret 0x3f = some 0x7f := by decide
  split
  · rename_i hge
    split
    · rename_i hi
      split
      · rename_i hd
        have hd : c &&& 0x7f = 0x7f := by simpa using hd
        simp [unvisItem, o2, hd7, h4 hge hd]
      · rename_i hd
        have hd : c &&& 0x7f ≠ 0x7f := by simpa using hd
        obtain ⟨b, hb1, hb2⟩ := h3 hge hi hd
        simp [unvisItem, o2, hb1, hb2]
    · obtain ⟨ha, hb⟩ := h5 hge
      simp [unvisItem, o2, ha, hb]
  · rename_i hge
    have hl := hlt hge
    rcases hc with hc | hc
    · exact absurd hc hge
    · rw [if_pos hc]
      split
      · rename_i hd
        have hd : c &&& 0x7f = 0x7f := by simpa using hd
        have := h2 hl hd
        simp [unvisItem, o1, this]
      · rename_i hd
        have hd : c &&& 0x7f ≠ 0x7f := by simpa using hd
        simp [unvisItem, o1, h1 hl hc hd]

/-- Whatever the flags (as long as backslashes are written), an item reads back as its byte. -/
theorem unvis_vis (f : VisFlags) (hf : f.noslash = false) (c n : UInt8) (r : Bytes)
    (hn : octDigit n = octDigit (r.headD 0)) : unvisItem (vis f c n ++ r) = some (c, r) := by
  by_cases hv : isvisible f c = true
  · rw [vis_visible f c n hv, hf]
    by_cases hb : c = 0x5c
    · subst hb; simp [unvisItem, octDigit, letterEsc]
    · have : (c == 0x5c) = false := by simpa using hb
      simp [this, unvisItem, hb]
  · unfold vis
    rw [if_neg hv]
    have hv : isvisible f c = false := by simpa using hv
    split
    · rename_i e he
      split at he
      · exact unvis_cstyle c n e r he hn
      · cases he
    · split
      · exact unvis_octal c r
      · rename_i ho
        simp only [Bool.or_eq_true, not_or, Bool.not_eq_true] at ho
        obtain ⟨⟨ho1, _⟩, ho3⟩ := ho
        dsimp only
        rw [hf]
        apply unvis_meta
        by_cases hc : c ≥ 0x80
        · exact .inl hc
        · exact .inr (not_visible_small f c hv ho3 ho1 (by simpa using hc))

theorem visAll_head (f : VisFlags) (hf : f.noslash = false) (src : Bytes) :
    octDigit ((visAll f src).headD 0) = octDigit (nextc src) := by
  cases src with
  | nil => rfl
  | cons c src => exact vis_head f hf c _ _

theorem unvisN_visAll (f : VisFlags) (hf : f.noslash = false) (src : Bytes) : ∀ n, (visAll f src).length ≤ n →
    unvisN n (visAll f src) = some src := by
  induction src with
  | nil => intro n _; cases n <;> rfl
  | cons c src ih =>
    intro n hn
    have hpos := vis_length_pos f c (nextc src)
    have hi := unvis_vis f hf c (nextc src) (visAll f src) (visAll_head f hf src).symm
    have hl : (visAll f (c :: src)).length = (vis f c (nextc src)).length + (visAll f src).length := by simp [visAll]
    have hcons : ∃ a t, vis f c (nextc src) ++ visAll f src = a :: t := by
      cases hvis : vis f c (nextc src) with
      | nil => rw [hvis] at hpos; simp at hpos
      | cons a t => exact ⟨a, t ++ visAll f src, rfl⟩
    obtain ⟨a, t, hat⟩ := hcons
    cases n with
    | zero => omega
    | succ n =>
      show unvisN (n + 1) (vis f c (nextc src) ++ visAll f src) = _
      rw [hat, unvisN, ← hat, hi]
      dsimp only
      rw [ih n (by omega)]
      rfl

theorem unvis_visAll (f : VisFlags) (hf : f.noslash = false) (src : Bytes) : unvis (visAll f src) = some src :=
  unvisN_visAll f hf src _ (Nat.le_refl _)

theorem vis_next (f : VisFlags) (c n m : UInt8) (hc : c ≠ 0) : vis f c n = vis f c m := by
  have : cstyleEsc c n = cstyleEsc c m := by
    have hz : (c == 0) = false := by simpa using hc
    unfold cstyleEsc
    simp only [hz, Bool.false_eq_true, if_false]
  unfold vis
  rw [this]

theorem visAll_append (f : VisFlags) (a b : Bytes) (h : ∀ c ∈ a, c ≠ 0) :
    visAll f (a ++ b) = visAll f a ++ visAll f b := by
  induction a with
  | nil => rfl
  | cons c a ih =>
    simp only [List.cons_append, visAll]
    rw [ih (fun d hd => h d (by simp [hd])), vis_next f c (nextc (a ++ b)) (nextc a) (h c (by simp))]
    simp

/-- What the loop stores in a short buffer is the encoding of a prefix of the source, and the next item would not have
fitted. -/
theorem strnvisLoop_prefix (f : VisFlags) (siz : Nat) (src : Bytes) : ∀ (out : Bytes) (i : Nat), out.length + 1 ≤ siz →
    ∃ fst rest, src = fst ++ rest ∧ (strnvisLoop f siz src out i).2.1 = rest ∧
      (strnvisLoop f siz src out i).1 ++ visAll f rest = out ++ visAll f src ∧
      (strnvisLoop f siz src out i).1.length + 1 ≤ siz ∧
      ∀ c r, rest = c :: r → siz < (strnvisLoop f siz src out i).1.length + (vis f c (nextc r)).length + 1 := by
  induction src with
  | nil => intro out i h; exact ⟨[], [], rfl, rfl, rfl, h, fun _ _ h => (nomatch h)⟩
  | cons c src ih =>
    intro out i h
    have hpos := vis_length_pos f c (nextc src)
    have stop : ∀ j, siz < out.length + (vis f c (nextc src)).length + 1 →
        ∃ fst rest, c :: src = fst ++ rest ∧ ((out, c :: src, j) : Bytes × Bytes × Nat).2.1 = rest ∧
          ((out, c :: src, j) : Bytes × Bytes × Nat).1 ++ visAll f rest = out ++ visAll f (c :: src) ∧
          ((out, c :: src, j) : Bytes × Bytes × Nat).1.length + 1 ≤ siz ∧
          ∀ d r, rest = d :: r →
            siz < ((out, c :: src, j) : Bytes × Bytes × Nat).1.length + (vis f d (nextc r)).length + 1 := by
      intro j hj
      refine ⟨[], c :: src, rfl, rfl, rfl, h, ?_⟩
      intro d r hdr
      cases hdr
      exact hj
    have go : ∀ e j, e = vis f c (nextc src) → out.length + e.length + 1 ≤ siz →
        ∃ fst rest, c :: src = fst ++ rest ∧ (strnvisLoop f siz src (out ++ e) j).2.1 = rest ∧
          (strnvisLoop f siz src (out ++ e) j).1 ++ visAll f rest = out ++ visAll f (c :: src) ∧
          (strnvisLoop f siz src (out ++ e) j).1.length + 1 ≤ siz ∧
          ∀ d r, rest = d :: r →
            siz < (strnvisLoop f siz src (out ++ e) j).1.length + (vis f d (nextc r)).length + 1 := by
      intro e j he hroom
      obtain ⟨a, rest, e1, e2, e3, e4, e5⟩ := ih (out ++ e) j (by simp; omega)
      refine ⟨c :: a, rest, by rw [e1]; rfl, e2, ?_, e4, e5⟩
      rw [e3, he]
      simp [visAll]
    unfold strnvisLoop
    split
    · split
      · rename_i hlt hv
        have hvis := vis_visible f c (nextc src) hv
        split
        · rename_i hb
          rw [if_pos hb] at hvis
          split
          · refine go [c, 0x5c] 1 ?_ (by simp; omega)
            rw [hvis]
          · exact stop _ (by rw [hvis]; simp; omega)
        · rename_i hb
          rw [if_neg hb] at hvis
          exact go [c] 1 (by rw [hvis]) (by simp; omega)
      · dsimp only
        split
        · exact go _ _ rfl (by assumption)
        · exact stop _ (by omega)
    · exact stop _ (by omega)

/-- The return value is the length of the whole encoding, even if the buffer is too short for it, unless there is room
for the NUL alone. -/
theorem strnvis_ret (f : VisFlags) (src : Bytes) (siz : Nat) (h1 : siz ≠ 1) :
    (strnvis f src siz).2 = visLen f src := by
  by_cases hz : siz = 0
  · subst hz
    cases src with
    | nil => rfl
    | cons c src => simp [strnvis, strnvisLoop]
  · obtain ⟨o, r, j, e1, e2, _, e4, _⟩ := strnvisLoop_spec f siz src [] 0 (by simp; omega) (by simp; omega)
    have hl : o.length + visLen f r = visLen f src := by
      rw [← visAll_length, ← visAll_length, ← List.length_append, e2]; rfl
    simp only [strnvis, e1]
    by_cases hr : r = []
    · subst hr
      have : visLen f [] = 0 := rfl
      split <;> omega
    · rw [if_pos (e4 hr)]; exact hl

end Ladvd
