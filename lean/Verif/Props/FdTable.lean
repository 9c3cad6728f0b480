import Verif.Spec.FdTable
import Verif.Lemmas.Refresh
/-!
# C100: receiving messages neither loses nor leaks descriptors
-/

namespace Ladvd.Props

open Ladvd Spec

theorem lowestFree_some {limit : Nat} {t : FdTable} {fd : Nat} (h : lowestFree limit t = some fd) : fd < limit ∧ fd ∉ t.map (·.1) := by
  unfold lowestFree at h
  refine ⟨List.mem_range.mp (List.mem_of_find?_eq_some h), fun hm => ?_⟩
  have := List.find?_some h
  simp only [Bool.not_eq_true', List.contains_eq_mem, decide_eq_false_iff_not] at this
  exact this hm

theorem lowestFree_isSome {limit : Nat} {t : FdTable} {k : Nat} (hk : k < limit) (hn : k ∉ t.map (·.1)) : ∃ fd, lowestFree limit t = some fd := by
  cases h : lowestFree limit t with
  | some fd => exact ⟨fd, rfl⟩
  | none =>
    unfold lowestFree at h
    have := List.find?_eq_none.mp h k (List.mem_range.mpr hk)
    simp only [Bool.not_eq_true', List.contains_eq_mem, decide_eq_false_iff_not, Decidable.not_not] at this
    exact absurd this hn

theorem free_next {limit n : Nat} {t : FdTable} {fs : List (Nat × Nat)} (h : HasFree limit n t) (hl : fs.length < n) :
    ∃ fd, lowestFree limit (t ++ fs) = some fd := by
  obtain ⟨s, hs, hn, hf⟩ := h
  have : ∃ k ∈ s, k ∉ fs.map (·.1) := by
    false_or_by_contra
    rename_i hc
    have := length_le_of_nodup_subset hs (m := fs.map (·.1)) (fun a ha => by
      false_or_by_contra
      exact hc ⟨a, ha, by assumption⟩)
    simp only [List.length_map] at this
    omega
  obtain ⟨k, hk, hkf⟩ := this
  refine lowestFree_isSome (hf k hk).1 ?_
  rw [List.map_append, List.mem_append]
  rintro (h | h)
  · obtain ⟨x, hx, rfl⟩ := List.mem_map.mp h
    exact (hf _ hk).2 x.2 hx
  · exact hkf h

theorem closeFd_append {t : FdTable} {fd f : Nat} (hn : fd ∉ t.map (·.1)) (fs : FdTable) : closeFd (t ++ (fd, f) :: fs) fd = t ++ fs := by
  unfold closeFd
  rw [List.eraseP_append_right, List.eraseP_cons_of_pos (by simp)]
  intro x hx hb
  exact hn (List.mem_map.mpr ⟨x, hx, eq_of_beq hb⟩)

/-- The first loop: it appends scratch sockets and fills the array with their numbers, and a -1 where it stopped. -/
theorem availOpen_spec (limit : Nat) (grant : Nat → Bool) (k : Nat) : ∀ (i : Nat) (t : FdTable) (a : List (Option Int)), TableOk t → i + k ≤ a.length →
    ∃ fs : List Nat, (availOpen limit grant i k t a).1 = t ++ fs.map (·, scratchFile) ∧ TableOk (t ++ fs.map (·, scratchFile)) ∧ (∀ x ∈ fs, x < limit) ∧
      (∀ j < i, (availOpen limit grant i k t a).2.1[j]? = a[j]?) ∧
      (∀ j (h : j < fs.length), (availOpen limit grant i k t a).2.1[i + j]? = some (some (fs[j] : Int))) ∧
      (((availOpen limit grant i k t a).2.2 = 0 ∧ fs.length = k ∧ ∀ j < k, grant (i + j) = true) ∨
       ((availOpen limit grant i k t a).2.2 = 1 ∧ fs.length < k ∧ (availOpen limit grant i k t a).2.1[i + fs.length]? = some (some (-1)) ∧
         (grant (i + fs.length) = false ∨ lowestFree limit (t ++ fs.map (·, scratchFile)) = none))) := by
  induction k with
  | zero =>
    intro i t a ht _
    refine ⟨[], ?_⟩
    simp only [availOpen, List.map_nil, List.append_nil]
    exact ⟨trivial, ht, (by intro x hx; cases hx), fun _ _ => trivial, fun j h => absurd h (Nat.not_lt_zero _), .inl ⟨trivial, rfl, fun j h => absurd h (Nat.not_lt_zero _)⟩⟩
  | succ k ih =>
    intro i t a ht hl
    have stop : ∀ (hs : availOpen limit grant i (k + 1) t a = (t, a.set i (some (-1)), 1)) (hw : grant i = false ∨ lowestFree limit t = none),
        ∃ fs : List Nat, (availOpen limit grant i (k + 1) t a).1 = t ++ fs.map (·, scratchFile) ∧ TableOk (t ++ fs.map (·, scratchFile)) ∧ (∀ x ∈ fs, x < limit) ∧
      (∀ j < i, (availOpen limit grant i (k + 1) t a).2.1[j]? = a[j]?) ∧
      (∀ j (h : j < fs.length), (availOpen limit grant i (k + 1) t a).2.1[i + j]? = some (some (fs[j] : Int))) ∧
      (((availOpen limit grant i (k + 1) t a).2.2 = 0 ∧ fs.length = k + 1 ∧ ∀ j < k + 1, grant (i + j) = true) ∨
       ((availOpen limit grant i (k + 1) t a).2.2 = 1 ∧ fs.length < k + 1 ∧ (availOpen limit grant i (k + 1) t a).2.1[i + fs.length]? = some (some (-1)) ∧
         (grant (i + fs.length) = false ∨ lowestFree limit (t ++ fs.map (·, scratchFile)) = none))) := by
      intro hs hw
      refine ⟨[], ?_⟩
      rw [hs]
      simp only [List.map_nil, List.append_nil, List.length_nil, Nat.add_zero]
      refine ⟨trivial, ht, (by intro x hx; cases hx), fun j hj => by rw [List.getElem?_set_ne (by omega)], fun j h => absurd h (Nat.not_lt_zero _),
        .inr ⟨trivial, by omega, ?_, hw⟩⟩
      rw [List.getElem?_set_self (by omega)]
    cases hg : grant i with
    | false => exact stop (by unfold availOpen; rw [hg]) (.inl hg)
    | true =>
      cases hf : lowestFree limit t with
      | none => exact stop (by unfold availOpen; rw [hg, hf]) (.inr hf)
      | some fd =>
        obtain ⟨hlt, hnt⟩ := lowestFree_some hf
        have hs : availOpen limit grant i (k + 1) t a = availOpen limit grant (i + 1) k (t ++ [(fd, scratchFile)]) (a.set i (some fd)) := by
          rw [availOpen, hg, hf]
        rw [hs]
        have hok : TableOk (t ++ [(fd, scratchFile)]) := by
          unfold TableOk
          rw [List.map_append, List.nodup_append]
          refine ⟨ht, by simp, ?_⟩
          intro a ha b hb
          simp only [List.map_cons, List.map_nil, List.mem_singleton] at hb
          subst hb
          intro he
          exact hnt (he ▸ ha)
        obtain ⟨fs, h1, h2, h3, h4, h5, h6⟩ := ih (i + 1) (t ++ [(fd, scratchFile)]) (a.set i (some fd)) hok (by rw [List.length_set]; omega)
        have hap : t ++ (fd :: fs).map (·, scratchFile) = t ++ [(fd, scratchFile)] ++ fs.map (·, scratchFile) := by simp
        refine ⟨fd :: fs, ?_, ?_, ?_, ?_, ?_, ?_⟩
        · rw [hap]; exact h1
        · rw [hap]; exact h2
        · intro x hx
          rcases List.mem_cons.mp hx with rfl | hx
          · exact hlt
          · exact h3 x hx
        · intro j hj
          rw [h4 j (by omega), List.getElem?_set_ne (by omega)]
        · intro j hj
          cases j with
          | zero => exact (h4 i (by omega)).trans (List.getElem?_set_self (by omega))
          | succ j =>
            have := h5 j (by simpa using hj)
            rw [show i + (j + 1) = i + 1 + j by omega, this]
            rfl
        · rw [hap, List.length_cons]
          rcases h6 with ⟨h6, h7, h8⟩ | ⟨h6, h7, h8, h9⟩
          · refine .inl ⟨h6, by omega, fun j hj => ?_⟩
            cases j with
            | zero => exact hg
            | succ j => rw [show i + (j + 1) = i + 1 + j by omega]; exact h8 j (by omega)
          · refine .inr ⟨h6, by omega, ?_, ?_⟩
            · rw [show i + (fs.length + 1) = i + 1 + fs.length by omega]; exact h8
            · rw [show i + (fs.length + 1) = i + 1 + fs.length by omega]; exact h9

/-- The second loop closes them all. -/
theorem availClose_spec (a : List (Option Int)) (fs : List Nat) : ∀ (i k : Nat) (t : FdTable), TableOk (t ++ fs.map (·, scratchFile)) →
    (∀ j (h : j < fs.length), a[i + j]? = some (some (fs[j] : Int))) → fs.length ≤ k → (fs.length = k ∨ a[i + fs.length]? = some (some (-1))) →
    availClose i k (t ++ fs.map (·, scratchFile)) a = .ok t := by
  induction fs with
  | nil =>
    intro i k t ht _ _ hk
    simp only [List.map_nil, List.append_nil, List.length_nil, Nat.add_zero] at hk ⊢
    cases k with
    | zero => rfl
    | succ k =>
      rcases hk with hk | hk
      · omega
      · rw [availClose, hk]; rfl
  | cons fd fs ih =>
    intro i k t ht ha hl hk
    obtain ⟨k, rfl⟩ : ∃ j, k = j + 1 := ⟨k - 1, by simp only [List.length_cons] at hl; omega⟩
    have hnt : fd ∉ t.map (·.1) := by
      unfold TableOk at ht
      rw [List.map_append, List.nodup_append] at ht
      intro h
      exact ht.2.2 fd h fd (by simp) rfl
    have h0 := ha 0 (by simp)
    rw [Nat.add_zero] at h0
    rw [availClose, h0]
    simp only [List.getElem_cons_zero]
    rw [if_pos (by omega), List.map_cons, show ((fd : Int)).toNat = fd by omega, closeFd_append hnt]
    refine ih (i + 1) k t ?_ ?_ (by simpa using hl) ?_
    · unfold TableOk at ht ⊢
      simp only [List.map_append, List.map_cons, List.nodup_append, List.nodup_cons] at ht ⊢
      exact ⟨ht.1, ht.2.1.2, fun a ha b hb => ht.2.2 a ha b (List.mem_cons_of_mem _ hb)⟩
    · intro j hj
      have := ha (j + 1) (by simp only [List.length_cons]; omega)
      rw [show i + 1 + j = i + (j + 1) by omega, this]
      rfl
    · simp only [List.length_cons] at hk
      rw [show i + 1 + fs.length = i + (fs.length + 1) by omega]
      rcases hk with hk | hk
      · exact .inl (by omega)
      · exact .inr hk

/-- The question for `n` descriptors leaves the table as it was, reads nothing it has not written, and is answered by yes exactly if there are at most 256, the
numbers are free, and the kernel grants the sockets. -/
theorem C100_available (limit : Nat) (grant : Nat → Bool) (n : Nat) (t : FdTable) (ht : TableOk t) :
    ∃ ret, availableFds limit grant n t = .ok (t, ret) ∧ (ret = 0 ∨ ret = 1) ∧
      (ret = 0 ↔ n ≤ 256 ∧ HasFree limit n t ∧ ∀ i < n, grant i = true) := by
  unfold availableFds
  by_cases hn : n > 256
  · rw [if_pos hn]
    exact ⟨1, rfl, .inr rfl, by constructor <;> omega⟩
  · rw [if_neg hn]
    obtain ⟨fs, h1, h2, h3, -, h5, h6⟩ := availOpen_spec limit grant n 0 t (List.replicate 256 none) ht (by rw [List.length_replicate]; omega)
    refine ⟨(availOpen limit grant 0 n t (List.replicate 256 none)).2.2, ?_, ?_, ?_⟩
    · dsimp only
      rw [h1, availClose_spec _ fs 0 n t h2 h5 ?_ ?_]
      · rfl
      · rcases h6 with ⟨-, h, -⟩ | ⟨-, h, -⟩ <;> omega
      · rcases h6 with ⟨-, h, -⟩ | ⟨-, -, h, -⟩
        · exact .inl h
        · exact .inr h
    · rcases h6 with ⟨h, -⟩ | ⟨h, -⟩
      · exact .inl h
      · exact .inr h
    · constructor
      · intro h0
        rcases h6 with ⟨-, h, hg⟩ | ⟨h, -⟩
        · refine ⟨by omega, ⟨fs, ?_, h, ?_⟩, fun i hi => by have := hg i hi; rwa [Nat.zero_add] at this⟩
          · unfold TableOk at h2
            rw [List.map_append, List.nodup_append, List.map_map] at h2
            simpa [Function.comp_def] using h2.2.1
          · intro k hk
            refine ⟨h3 k hk, fun f hf => ?_⟩
            unfold TableOk at h2
            rw [List.map_append, List.nodup_append] at h2
            exact h2.2.2 k (List.mem_map.mpr ⟨_, hf, rfl⟩) k (List.mem_map.mpr ⟨(k, scratchFile), List.mem_map.mpr ⟨k, hk, rfl⟩, rfl⟩) rfl
        · omega
      · rintro ⟨-, hf, hg⟩
        rcases h6 with ⟨h, -⟩ | ⟨-, h, -, hw⟩
        · exact h
        · exfalso
          rcases hw with hw | hw
          · rw [Nat.zero_add, hg _ h] at hw; cases hw
          · obtain ⟨fd, hfd⟩ := free_next (fs := fs.map (·, scratchFile)) hf (by rwa [List.length_map])
            rw [hw] at hfd; cases hfd

/-- The kernel makes a descriptor for each file if there are numbers. -/
theorem installFds_spec (limit : Nat) (files : List Nat) : ∀ (t : FdTable), TableOk t →
    ∃ fds : List Nat, fds.length ≤ files.length ∧ installFds limit t files = (t ++ fds.zip files, fds) ∧ TableOk (t ++ fds.zip files) ∧
      (∀ n ≤ files.length, HasFree limit n t → n ≤ fds.length) := by
  induction files with
  | nil =>
    intro t ht
    exact ⟨[], Nat.le_refl _, by simp [installFds], by simpa using ht, fun n hn _ => hn⟩
  | cons f files ih =>
    intro t ht
    cases hf : lowestFree limit t with
    | none =>
      refine ⟨[], Nat.zero_le _, by rw [installFds, hf]; simp, by simpa using ht, fun n hn hfree => ?_⟩
      cases n with
      | zero => exact Nat.le_refl _
      | succ n =>
        obtain ⟨fd, hfd⟩ := free_next (fs := []) hfree (by simp)
        rw [List.append_nil, hf] at hfd; cases hfd
    | some fd =>
      obtain ⟨hlt, hnt⟩ := lowestFree_some hf
      have hok : TableOk (t ++ [(fd, f)]) := by
        unfold TableOk
        rw [List.map_append, List.nodup_append]
        refine ⟨ht, by simp, ?_⟩
        intro a ha b hb
        simp only [List.map_cons, List.map_nil, List.mem_singleton] at hb
        subst hb
        intro he
        exact hnt (he ▸ ha)
      obtain ⟨fds, h1, h2, h3, h4⟩ := ih (t ++ [(fd, f)]) hok
      have hap : t ++ (fd :: fds).zip (f :: files) = t ++ [(fd, f)] ++ fds.zip files := by simp
      refine ⟨fd :: fds, by simp only [List.length_cons]; omega, ?_, ?_, fun n hn hfree => ?_⟩
      · rw [installFds, hf, hap]
        simp only [h2]
      · rw [hap]; exact h3
      · cases n with
        | zero => omega
        | succ n =>
          have := h4 n (by simpa using hn) (by
            obtain ⟨s, hs, hl, hk⟩ := hfree
            by_cases hm : fd ∈ s
            · refine ⟨s.erase fd, hs.erase fd, by rw [List.length_erase_of_mem hm]; omega, fun k hks => ?_⟩
              obtain ⟨hne, hks⟩ := (hs.mem_erase_iff).mp hks
              refine ⟨(hk k hks).1, fun g hg => ?_⟩
              rcases List.mem_append.mp hg with hg | hg
              · exact (hk k hks).2 g hg
              · exact hne (congrArg Prod.fst (List.mem_singleton.mp hg))
            · cases s with
              | nil => cases hl
              | cons a s =>
                refine ⟨s, (List.nodup_cons.mp hs).2, by simpa using hl, fun k hks => ?_⟩
                refine ⟨(hk k (List.mem_cons_of_mem _ hks)).1, fun g hg => ?_⟩
                rcases List.mem_append.mp hg with hg | hg
                · exact (hk k (List.mem_cons_of_mem _ hks)).2 g hg
                · have := congrArg Prod.fst (List.mem_singleton.mp hg)
                  dsimp only at this
                  subst this
                  exact hm (List.mem_cons_of_mem _ hks))
          simp only [List.length_cons]
          omega

theorem close_rest (t : FdTable) (fds : List Nat) : ∀ (files : List Nat), fds.length ≤ files.length → TableOk (t ++ fds.zip files) →
    fds.foldl closeFd (t ++ fds.zip files) = t := by
  induction fds with
  | nil => intro files _ _; simp
  | cons fd fds ih =>
    intro files hl ht
    cases files with
    | nil => simp at hl
    | cons f files =>
      simp only [List.zip_cons_cons, List.foldl_cons] at ht ⊢
      have hnt : fd ∉ t.map (·.1) := by
        unfold TableOk at ht
        rw [List.map_append, List.nodup_append] at ht
        intro h
        exact ht.2.2 fd h fd (by simp) rfl
      rw [closeFd_append hnt]
      refine ih files (by simpa using hl) ?_
      unfold TableOk at ht ⊢
      simp only [List.map_append, List.map_cons, List.nodup_append, List.nodup_cons] at ht ⊢
      exact ⟨ht.1, ht.2.1.2, fun a ha b hb => ht.2.2 a ha b (List.mem_cons_of_mem _ hb)⟩

/-- Reading from the socket, whatever the kernel answers.  If it fails, with -1, the descriptor table and the buffer are as before; there was an error, or there
were not two free descriptors.  Otherwise the bytes of one answer are appended, and if files came with them, the first one is now open under exactly one new
number, which was free and is kept for the message, and nothing else is open that was not before: descriptors are neither lost nor leaked. -/
theorem C100_read (limit : Nat) (ks : List ((Nat → Bool) × RecvAns)) (t : FdTable) (ht : TableOk t) (r : ImsgRd) (n : Int) (t' : FdTable) (r' : ImsgRd)
    (h : imsgReadCall limit ks t r = .ok (n, t', r')) :
    (n = -1 ∧ t' = t ∧ r' = r ∧ ((∃ g, (g, .error) ∈ ks) ∨ ¬ HasFree limit 2 t ∨ ∃ g a i, (g, a) ∈ ks ∧ i < 2 ∧ g i = false)) ∨
    ∃ g d files, (g, .got d files) ∈ ks ∧ n = d.length ∧ HasFree limit 2 t ∧ r'.buf = r.buf ++ d ∧
      ((files = [] ∧ t' = t ∧ r'.fds = r.fds) ∨
       ∃ f rest fd, files = f :: rest ∧ fd < limit ∧ (∀ g, (fd, g) ∉ t) ∧ t' = t ++ [(fd, f)] ∧ r'.fds = r.fds ++ [fd]) := by
  induction ks with
  | nil => cases h
  | cons x ks ih =>
    obtain ⟨grant, ans⟩ := x
    obtain ⟨ret, ha, -, hret⟩ := C100_available limit grant CMSG_FDS t ht
    rw [imsgReadCall, ha] at h
    simp only [Res.bind_eq, Res.bind_ok] at h
    by_cases h0 : ret = 0
    · obtain ⟨-, hfree, -⟩ := hret.mp h0
      rw [if_neg (by simpa using h0)] at h
      have hfree : HasFree limit 2 t := hfree
      cases ans with
      | retry =>
        rcases ih h with ⟨h1, h2, h3, h4⟩ | ⟨g, d, files, hm, hrest⟩
        · refine .inl ⟨h1, h2, h3, ?_⟩
          rcases h4 with ⟨g, hg⟩ | h4 | ⟨g, a, i, hg, hi⟩
          · exact .inl ⟨g, List.mem_cons_of_mem _ hg⟩
          · exact .inr (.inl h4)
          · exact .inr (.inr ⟨g, a, i, List.mem_cons_of_mem _ hg, hi⟩)
        · exact .inr ⟨g, d, files, List.mem_cons_of_mem _ hm, hrest⟩
      | error =>
        simp only [Res.pure_eq, Res.ok.injEq, Prod.mk.injEq] at h
        obtain ⟨rfl, rfl, rfl⟩ := h
        exact .inl ⟨rfl, rfl, rfl, .inl ⟨grant, by simp⟩⟩
      | got d files =>
        refine .inr ⟨grant, d, files, by simp, ?_⟩
        obtain ⟨fds, h1, h2, h3, h4⟩ := installFds_spec limit (files.take CMSG_FDS) t ht
        dsimp only at h
        rw [h2] at h
        dsimp only at h
        unfold imsgRead at h
        split at h
        · simp only [Res.bind_ok, Res.pure_eq, Res.ok.injEq, Prod.mk.injEq] at h
          obtain ⟨rfl, rfl, rfl⟩ := h
          refine ⟨rfl, hfree, rfl, ?_⟩
          cases files with
          | nil =>
            have : fds = [] := List.eq_nil_of_length_eq_zero (by simpa using h1)
            subst this
            exact .inl ⟨rfl, by simp, by simp⟩
          | cons f rest =>
            cases fds with
            | nil =>
              exfalso
              obtain ⟨s, hs, hl, hk⟩ := hfree
              have := h4 1 (by rw [show CMSG_FDS = 2 from rfl]; simp) ⟨s.take 1, hs.sublist (List.take_sublist 1 s), by rw [List.length_take]; omega,
                fun k hk' => hk k (List.mem_of_mem_take hk')⟩
              simp at this
            | cons fd fds =>
              have hz : t ++ (fd :: fds).zip ((f :: rest).take CMSG_FDS) = (t ++ [(fd, f)]) ++ fds.zip (rest.take 1) := by
                rw [show CMSG_FDS = 1 + 1 from rfl, List.take_succ_cons]
                simp
              rw [hz] at h3
              have hok : TableOk (t ++ [(fd, f)]) := by
                unfold TableOk at h3 ⊢
                rw [List.map_append, List.nodup_append] at h3
                exact h3.1
              have hnt : fd ∉ t.map (·.1) := by
                unfold TableOk at hok
                rw [List.map_append, List.nodup_append] at hok
                intro h
                exact hok.2.2 fd h fd (by simp) rfl
              refine .inr ⟨f, rest, fd, rfl, ?_, fun g hg => hnt (List.mem_map.mpr ⟨_, hg, rfl⟩), ?_, by simp⟩
              · cases hf : lowestFree limit t with
                | none =>
                  rw [show CMSG_FDS = 1 + 1 from rfl, List.take_succ_cons, installFds, hf] at h2
                  cases (Prod.mk.inj h2).2
                | some fd' =>
                  rw [show CMSG_FDS = 1 + 1 from rfl, List.take_succ_cons, installFds, hf] at h2
                  have := (Prod.mk.inj h2).2
                  injection this with h _
                  subst h
                  exact (lowestFree_some hf).1
              · rw [hz]
                simp only [List.drop_succ_cons, List.drop_zero]
                refine close_rest _ fds _ ?_ h3
                have := h1
                rw [show CMSG_FDS = 1 + 1 from rfl, List.take_succ_cons] at this
                simpa using this
        · cases h
    · rw [if_pos (by simpa using h0)] at h
      simp only [Res.pure_eq, Res.ok.injEq, Prod.mk.injEq] at h
      obtain ⟨rfl, rfl, rfl⟩ := h
      refine .inl ⟨rfl, rfl, rfl, .inr ?_⟩
      by_cases hf : HasFree limit 2 t
      · refine .inr ?_
        false_or_by_contra
        rename_i hc
        refine h0 (hret.mpr ⟨by decide, hf, fun i hi => ?_⟩)
        cases hg : grant i with
        | true => rfl
        | false => exact absurd ⟨grant, ans, i, by simp, hi, hg⟩ hc
      · exact .inl hf

/-- While there is nothing to read on a socket that does not block (`EAGAIN`), the call does not return, however often the kernel is asked. -/
theorem C100_spins (limit : Nat) (t : FdTable) (ht : TableOk t) (hf : HasFree limit 2 t) (r : ImsgRd) (k : Nat) :
    imsgReadCall limit (List.replicate k (fun _ => true, .retry)) t r = .stuck := by
  induction k with
  | zero => rfl
  | succ k ih =>
    obtain ⟨ret, ha, -, hret⟩ := C100_available limit (fun _ => true) CMSG_FDS t ht
    have h0 := hret.mpr ⟨by decide, hf, fun _ _ => rfl⟩
    subst h0
    rw [List.replicate_succ, imsgReadCall, ha]
    simp only [Res.bind_eq, Res.bind_ok]
    exact ih

/-- It answers otherwise: with two descriptors free and room in the buffer, any first answer that is not `EINTR` or `EAGAIN` ends it. -/
theorem C100_returns (limit : Nat) (t : FdTable) (ht : TableOk t) (r : ImsgRd) (g : Nat → Bool) (a : RecvAns) (ks : List ((Nat → Bool) × RecvAns)) (k : Nat)
    (ha : a ≠ .retry) (hroom : ∀ d files, a = .got d files → d.length ≤ 65535 - r.buf.length) (hbuf : r.buf.length ≤ 65535) :
    ∃ x, imsgReadCall limit (List.replicate k (fun _ => true, .retry) ++ (g, a) :: ks) t r = .ok x := by
  induction k with
  | zero =>
    obtain ⟨ret, hav, -, -⟩ := C100_available limit g CMSG_FDS t ht
    rw [List.replicate_zero, List.nil_append, imsgReadCall, hav]
    simp only [Res.bind_eq, Res.bind_ok]
    split
    · exact ⟨_, rfl⟩
    · cases a with
      | retry => exact absurd rfl ha
      | error => exact ⟨_, rfl⟩
      | got d files =>
        dsimp only
        unfold imsgRead
        rw [if_pos (by have := hroom d files rfl; rw [IBUF_READ_SIZE]; omega)]
        exact ⟨_, rfl⟩
  | succ k ih =>
    obtain ⟨ret, hav, -, -⟩ := C100_available limit (fun _ => true) CMSG_FDS t ht
    rw [List.replicate_succ, List.cons_append, imsgReadCall, hav]
    simp only [Res.bind_eq, Res.bind_ok]
    split
    · exact ⟨_, rfl⟩
    · exact ih

/-- A process with descriptors 0 to 3, of which 1 was closed. -/
def tableSample : FdTable := [(0, 10), (2, 12), (3, 13)]

example : TableOk tableSample ∧ HasFree 8 2 tableSample ∧ ¬ HasFree 4 2 tableSample := by
  refine ⟨by decide, ⟨[1, 4], by decide, rfl, ?_⟩, ?_⟩
  · intro k hk
    simp only [List.mem_cons, List.not_mem_nil, or_false] at hk
    refine ⟨by omega, fun f hf => ?_⟩
    simp only [tableSample, List.mem_cons, List.not_mem_nil, or_false, Prod.mk.injEq] at hf
    omega
  · rintro ⟨s, hs, hl, hk⟩
    have := length_le_of_nodup_subset hs (m := [1]) (fun a ha => by
      obtain ⟨h1, h2⟩ := hk a ha
      have h0 := h2 10
      have h2' := h2 12
      have h3 := h2 13
      simp [tableSample] at h0 h2' h3
      rw [List.mem_singleton]
      omega)
    simp only [List.length_cons, List.length_nil] at this
    omega

/-- Three files come with a message: the first one is kept as 1, the second one closed, the third one dropped by the kernel.  With no free descriptors the message
stays in the socket. -/
example : imsgReadCall 8 [(fun _ => true, .retry), (fun _ => true, .got [1, 2, 3] [20, 21, 22])] tableSample {} =
      .ok (3, tableSample ++ [(1, 20)], ⟨[1, 2, 3], [1], [4]⟩) ∧
    imsgReadCall 4 [(fun _ => true, .got [1, 2, 3] [20, 21, 22])] tableSample {} = .ok (-1, tableSample, {}) := by
  decide +kernel

end Ladvd.Props
