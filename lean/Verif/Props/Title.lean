import Verif.Lemmas.Title
/-!
# C58: Process titles
-/

namespace Ladvd.Props
open Ladvd.Spec

/-- The memory is as before but for a range. -/
private def Differs (mem mem' : Bytes) (a n : Nat) : Prop :=
  mem'.length = mem.length ∧ ∀ b, b < a ∨ a + n ≤ b → mem'[b]? = mem[b]?

private theorem setTitle_keeps {name text : Bytes} (hn : ∀ c ∈ name, c ≠ 0) (ht : ∀ c ∈ text, c ≠ 0) {pr : Proc}
    (hl : pr.len ≠ 0 → pr.start + pr.len ≤ pr.mem.length) :
    ∃ mem', setTitle name text pr = .ok { pr with mem := mem' } ∧ Differs pr.mem mem' pr.start pr.len := by
  by_cases h0 : pr.len = 0
  · exact ⟨pr.mem, by rw [setTitle, if_pos h0], rfl, fun _ _ => rfl⟩
  · have hl := hl h0
    refine ⟨_, setTitle_eq name text hn ht pr h0 hl, ?_⟩
    obtain ⟨y, hy⟩ : ∃ y, y = (titleText name text).take (pr.len - 1) ++
      List.replicate (pr.len - min (titleText name text).length (pr.len - 1)) 0 := ⟨_, rfl⟩
    have hyl : y.length = pr.len := by
      rw [hy, List.length_append, List.length_take, List.length_replicate]
      omega
    rw [← hy]
    have hA : (pr.mem.take pr.start).length = pr.start := by rw [List.length_take]; omega
    refine ⟨by rw [List.length_append, List.length_append, hA, hyl, List.length_drop]; omega, ?_⟩
    rintro b (hb | hb)
    · rw [List.append_assoc, List.getElem?_append_left (by omega), List.getElem?_take_of_lt hb]
    · rw [List.getElem?_append_right (by rw [List.length_append]; omega), List.getElem?_drop]
      congr 1
      rw [List.length_append]
      omega

private theorem setTitles_keeps {name : Bytes} (hn : ∀ c ∈ name, c ≠ 0) : ∀ (ts : List Bytes), (∀ t ∈ ts, ∀ c ∈ t, c ≠ 0) → ∀ (pr : Proc),
    (pr.len ≠ 0 → pr.start + pr.len ≤ pr.mem.length) →
    ∃ mem', setTitles name ts pr = .ok { pr with mem := mem' } ∧ Differs pr.mem mem' pr.start pr.len
  | [], _, pr, _ => ⟨pr.mem, rfl, rfl, fun _ _ => rfl⟩
  | t :: ts, ht, pr, hl => by
    obtain ⟨m1, h1, d1, d1'⟩ := setTitle_keeps hn (ht t List.mem_cons_self) hl
    obtain ⟨m2, h2, d2, d2'⟩ := setTitles_keeps hn ts (fun x hx => ht x (List.mem_cons_of_mem _ hx)) { pr with mem := m1 }
      (fun h => by rw [d1]; exact hl h)
    refine ⟨m2, ?_, d2.trans d1, fun b hb => (d2' b hb).trans (d1' b hb)⟩
    rw [setTitles, h1]
    exact h2

private theorem strAt_nonempty {mem : Bytes} {p : Nat} {s : Bytes} (h : strAt mem p = .ok s) (hp : mem[p]? ≠ some 0) : 0 < s.length := by
  unfold strAt at h
  split at h
  · next hm =>
    injection h with h
    subst h
    unfold cstr
    cases hd : mem.drop p with
    | nil => rw [hd] at hm; cases hm
    | cons c l =>
      have : mem[p]? = some c := by
        have := List.getElem?_drop (xs := mem) (i := p) (j := 0)
        rw [hd] at this
        simpa using this.symm
      rw [this] at hp
      have hc : c ≠ 0 := fun e => hp (by rw [e])
      rw [List.takeWhile_cons_of_pos (by simpa using hc)]
      simp
  · cases h

/-- The program is called with any command line and environment, its strings anywhere in memory, and sets any titles: this changes nothing but
bytes of these strings, and the arguments and the environment the program sees are those it was called with.  What is missing: the name of the
program must not be the empty string (`C58_empty_name`). -/
theorem C58_safe_partial (mem : Bytes) (argv envp : List Nat) (hs : ∀ p ∈ argv ++ envp, IsString mem p) (hmem : mem.length < 2 ^ 64)
    (hname : ∀ a0, argv.head? = some a0 → mem[a0]? ≠ some 0)
    (name : Bytes) (hn : ∀ c ∈ name, c ≠ 0) (ts : List Bytes) (ht : ∀ t ∈ ts, ∀ c ∈ t, c ≠ 0) :
    ∃ pr pr', titleStart mem argv envp = .ok pr ∧ setTitles name ts pr = .ok pr' ∧
      pr'.mem.length = mem.length ∧ (∀ a, pr'.mem[a]? ≠ mem[a]? → ∃ p ∈ argv ++ envp, Within mem p a) ∧
      readAll pr'.mem pr'.args = readAll mem (argv.map .at) ∧ readAll pr'.mem pr'.environ = readAll mem (envp.map .at) := by
  obtain ⟨args, ha, hra⟩ := dupAll_at argv (fun p hp => hs p (List.mem_append_left _ hp))
  obtain ⟨env, he, hre⟩ := dupAll_at envp (fun p hp => hs p (List.mem_append_right _ hp))
  cases argv with
  | nil =>
    obtain ⟨mem', h1, d1, d2⟩ := setTitles_keeps hn ts ht { mem := mem, args := args, environ := envp.map .at } (fun h => absurd rfl h)
    refine ⟨_, _, by rw [titleStart, ha]; rfl, h1, d1, fun a h => absurd (d2 a ?_) h, hra mem', ?_⟩
    · right; exact Nat.zero_le _
    · have : mem' = mem := List.ext_getElem? (fun b => d2 b (.inr (Nat.zero_le _)))
      rw [this]
  | cons a0 as =>
    obtain ⟨s, hsa, hsl, hsw⟩ := strAt_of (hs a0 (by simp))
    have hpos := strAt_nonempty hsa (hname a0 rfl)
    have hc0 : Covered mem ((a0 :: as) ++ envp) a0 (a0 + s.length) :=
      ⟨by omega, hsl, fun a h1 h2 => ⟨a0, by simp, hsw a h1 h2⟩⟩
    have hfirst : lastArg mem (a0 :: as) none = lastArg mem as (some (a0 + s.length)) := by
      rw [lastArg, if_pos (.inl rfl), hsa]; rfl
    obtain ⟨l1, hl1, hc1⟩ := lastArg_some as _ (fun p hp => ⟨hs p (by simp [hp]), by simp [hp]⟩) hc0
    obtain ⟨l2, hl2, hle, hc2⟩ := lastEnv_some envp l1 (fun p hp => ⟨hs p (by simp [hp]), by simp [hp]⟩) hc1
    have hgt : a0 < l2 := by
      -- the first string is not empty
      have := lastArg_le mem as (a0 + s.length)
      have := this _ hl1
      omega
    have hlen : (l2 + 2 ^ 64 - a0 - 1) % 2 ^ 64 = l2 - a0 - 1 := by
      have := hc2.2.1
      rw [show l2 + 2 ^ 64 - a0 - 1 = (l2 - a0 - 1) + 2 ^ 64 by omega, Nat.add_mod_right, Nat.mod_eq_of_lt (by omega)]
    have hinit : titleStart mem (a0 :: as) envp = .ok { mem := mem, args := args, environ := env, start := a0, len := l2 - a0 - 1 } := by
      unfold titleStart
      rw [ha]
      show titleInit (a0 :: as) envp { mem := mem, args := args, environ := envp.map .at } = _
      unfold titleInit
      dsimp only
      rw [hfirst, hl1]
      simp only [Res.bind_eq, Res.bind_ok, Option.getD_some]
      rw [hl2]
      simp only [Res.bind_ok]
      rw [he, hlen]
      rfl
    obtain ⟨mem', h1, d1, d2⟩ := setTitles_keeps hn ts ht { mem := mem, args := args, environ := env, start := a0, len := l2 - a0 - 1 }
      (fun _ => by have := hc2.2.1; show a0 + (l2 - a0 - 1) ≤ mem.length; omega)
    refine ⟨_, _, hinit, h1, d1, fun a h => ?_, hra mem', hre mem'⟩
    refine hc2.2.2 a ?_ ?_
    · exact Classical.byContradiction fun hlt => h (d2 a (.inl (show a < a0 by omega)))
    · exact Classical.byContradiction fun hlt => h (d2 a (.inr (show a0 + (l2 - a0 - 1) ≤ a by omega)))

private theorem strAt_here (pre s rest : Bytes) (hs : ∀ c ∈ s, c ≠ 0) : strAt (pre ++ (s ++ 0 :: rest)) pre.length = .ok s := by
  unfold strAt
  rw [List.drop_left, if_pos (by simp), cstr_line hs]

private theorem lastArg_packed : ∀ (ss : List Bytes) (pre post : Bytes) (last : Option Nat), (∀ s ∈ ss, ∀ c ∈ s, c ≠ 0) →
    (last = none ∧ ss ≠ [] ∨ last.map (· + 1) = some pre.length) →
    lastArg (pre ++ (packed ss ++ post)) (starts pre.length ss) last = .ok (some (pre.length + (packed ss).length - 1))
  | [], pre, post, last, _, h => by
    rcases h with ⟨_, h⟩ | h
    · exact absurd rfl h
    · cases last with
      | none => cases h
      | some l =>
        have : l + 1 = pre.length := by simpa using h
        show Res.ok (some l) = .ok (some (pre.length + 0 - 1))
        rw [← this]
        rfl
  | s :: ss, pre, post, last, hs, h => by
    rw [starts, lastArg, if_pos (h.imp (·.1) id), packed, List.append_assoc, List.cons_append, strAt_here _ _ _ (hs s List.mem_cons_self),
      Res.bind_ok]
    have ih := lastArg_packed ss (pre ++ s ++ [0]) post (some (pre.length + s.length)) (fun x hx => hs x (List.mem_cons_of_mem _ hx))
      (.inr (by simp; omega))
    have e1 : pre ++ s ++ [0] ++ (packed ss ++ post) = pre ++ (s ++ 0 :: (packed ss ++ post)) := by simp
    have e2 : (pre ++ s ++ [0]).length = pre.length + s.length + 1 := by simp; omega
    rw [e1, e2] at ih
    rw [ih]
    simp
    omega

private theorem lastEnv_packed : ∀ (ss : List Bytes) (pre post : Bytes) (last : Nat), (∀ s ∈ ss, ∀ c ∈ s, c ≠ 0) → last + 1 = pre.length →
    lastEnv (pre ++ (packed ss ++ post)) (starts pre.length ss) last = .ok (pre.length + (packed ss).length - 1)
  | [], pre, post, last, _, h => by
    show Res.ok last = .ok (pre.length + 0 - 1)
    rw [← h]
    rfl
  | s :: ss, pre, post, last, hs, h => by
    rw [starts, lastEnv, if_pos h, packed, List.append_assoc, List.cons_append, strAt_here _ _ _ (hs s List.mem_cons_self), Res.bind_ok]
    have ih := lastEnv_packed ss (pre ++ s ++ [0]) post (pre.length + s.length) (fun x hx => hs x (List.mem_cons_of_mem _ hx)) (by simp; omega)
    have e1 : pre ++ s ++ [0] ++ (packed ss ++ post) = pre ++ (s ++ 0 :: (packed ss ++ post)) := by simp
    have e2 : (pre ++ s ++ [0]).length = pre.length + s.length + 1 := by simp; omega
    rw [e1, e2] at ih
    rw [ih]
    simp
    omega

private theorem starts_strings : ∀ (ss : List Bytes) (pre post : Bytes), ∀ p ∈ starts pre.length ss, IsString (pre ++ (packed ss ++ post)) p
  | [], _, _, p, h => by cases h
  | s :: ss, pre, post, p, h => by
    rw [starts] at h
    have e2 : (pre ++ s ++ [0]).length = pre.length + s.length + 1 := by simp; omega
    rcases List.mem_cons.1 h with rfl | h
    · refine ⟨pre.length + s.length, by omega, ?_⟩
      rw [packed, List.getElem?_append_right (by omega), List.append_assoc, List.getElem?_append_right (by omega)]
      rw [show pre.length + s.length - pre.length - s.length = 0 by omega]
      rfl
    · have := starts_strings ss (pre ++ s ++ [0]) post p (by rw [e2]; exact h)
      rwa [show pre ++ s ++ [0] ++ (packed ss ++ post) = pre ++ (packed (s :: ss) ++ post) by simp [packed]] at this

private theorem packed_append : ∀ a b : List Bytes, packed (a ++ b) = packed a ++ packed b
  | [], _ => rfl
  | s :: a, b => by rw [List.cons_append, packed, packed, packed_append a b]; simp

private theorem setTitles_last {name : Bytes} (hn : ∀ c ∈ name, c ≠ 0) : ∀ (ts : List Bytes), (∀ t ∈ ts, ∀ c ∈ t, c ≠ 0) → ∀ (t : Bytes),
    (∀ c ∈ t, c ≠ 0) → ∀ (pr : Proc), pr.len ≠ 0 → pr.start + pr.len ≤ pr.mem.length →
    setTitles name (ts ++ [t]) pr = .ok { pr with mem := pr.mem.take pr.start ++ ((titleText name t).take (pr.len - 1) ++
      List.replicate (pr.len - min (titleText name t).length (pr.len - 1)) 0) ++ pr.mem.drop (pr.start + pr.len) }
  | [], _, t, ht, pr, h0, hl => by
    show (setTitle name t pr).bind _ = _
    rw [setTitle_eq name t hn ht pr h0 hl]
    rfl
  | u :: ts, hts, t, ht, pr, h0, hl => by
    rw [List.cons_append]
    show (setTitle name u pr).bind (setTitles name (ts ++ [t])) = _
    obtain ⟨m1, h1, d1, d2⟩ := setTitle_keeps hn (hts u List.mem_cons_self) (fun _ => hl)
    rw [h1, Res.bind_ok, setTitles_last hn ts (fun x hx => hts x (List.mem_cons_of_mem _ hx)) t ht { pr with mem := m1 } h0 (by
      show pr.start + pr.len ≤ m1.length; omega)]
    dsimp only
    have e1 : m1.take pr.start = pr.mem.take pr.start := by
      apply List.ext_getElem?
      intro b
      by_cases hb : b < pr.start
      · rw [List.getElem?_take_of_lt hb, List.getElem?_take_of_lt hb, d2 b (.inl hb)]
      · rw [List.getElem?_eq_none (by rw [List.length_take]; omega), List.getElem?_eq_none (by rw [List.length_take]; omega)]
    have e2 : m1.drop (pr.start + pr.len) = pr.mem.drop (pr.start + pr.len) := by
      apply List.ext_getElem?
      intro b
      rw [List.getElem?_drop, List.getElem?_drop, d2 _ (.inr (by omega))]
    rw [e1, e2]

/-- What `ps` finds: with the strings of the command line and the environment one behind the other, as Linux places them, their memory contains
afterwards the last title, as long as there is room, and zeros; only their last character remains.  A title of printable characters is the name of the
program, a colon and the text; whatever the name and the text, the title contains nothing but printable characters. -/
theorem C58_title (pre post : Bytes) (args env : List Bytes) (ha : args ≠ []) (hz : ∀ s ∈ args ++ env, ∀ c ∈ s, c ≠ 0)
    (h3 : 3 ≤ (packed (args ++ env)).length) (hmem : (pre ++ (packed (args ++ env) ++ post)).length < 2 ^ 64)
    (name : Bytes) (hn : ∀ c ∈ name, c ≠ 0) (ts : List Bytes) (hts : ∀ t ∈ ts, ∀ c ∈ t, c ≠ 0) (t : Bytes) (ht : ∀ c ∈ t, c ≠ 0) :
    ∃ pr pr' title, titleStart (pre ++ (packed (args ++ env) ++ post)) (starts pre.length args)
        (starts (pre.length + (packed args).length) env) = .ok pr ∧ setTitles name (ts ++ [t]) pr = .ok pr' ∧
      pr'.mem = pre ++ (title ++ List.replicate ((packed (args ++ env)).length - 2 - title.length) 0 ++
        (packed (args ++ env)).drop ((packed (args ++ env)).length - 2)) ++ post ∧
      title.length < (packed (args ++ env)).length - 2 ∧ (∀ c ∈ title, printable c = true) ∧
      (Plain (name ++ lit ": " ++ t) → title = (name ++ lit ": " ++ t).take (min 1023 ((packed (args ++ env)).length - 3))) := by
  have hpk := packed_append args env
  obtain ⟨mem, hm⟩ : ∃ mem, mem = pre ++ (packed (args ++ env) ++ post) := ⟨_, rfl⟩
  have hm1 : mem = pre ++ (packed args ++ (packed env ++ post)) := by rw [hm, hpk]; simp
  have hm2 : mem = pre ++ packed args ++ (packed env ++ post) := by rw [hm, hpk]; simp
  have hsa : ∀ p ∈ starts pre.length args, IsString mem p := fun p hp => hm1 ▸ starts_strings args pre (packed env ++ post) p hp
  have hse : ∀ p ∈ starts (pre.length + (packed args).length) env, IsString mem p := fun p hp => by
    rw [hm2]; exact starts_strings env (pre ++ packed args) post p (by rw [List.length_append]; exact hp)
  obtain ⟨as, hda, -⟩ := dupAll_at _ hsa
  obtain ⟨es, hde, -⟩ := dupAll_at _ hse
  obtain ⟨T, hT⟩ : ∃ T, T = (packed (args ++ env)).length := ⟨_, rfl⟩
  have hTl : T = (packed args).length + (packed env).length := by rw [hT, hpk, List.length_append]
  rw [← hm] at hmem ⊢
  rw [← hT] at h3 ⊢
  have hml : mem.length = pre.length + T + post.length := by rw [hm, List.length_append, List.length_append, ← hT]; omega
  have hpa : 1 ≤ (packed args).length := by
    cases args with
    | nil => exact absurd rfl ha
    | cons a as => rw [packed]; simp; omega
  have hl1 := lastArg_packed args pre (packed env ++ post) none (fun s hs => hz s (List.mem_append_left _ hs)) (.inl ⟨rfl, ha⟩)
  have hl2 := lastEnv_packed env (pre ++ packed args) post (pre.length + (packed args).length - 1) (fun s hs => hz s (List.mem_append_right _ hs))
    (by rw [List.length_append]; omega)
  rw [← hm1] at hl1
  rw [← hm2, List.length_append] at hl2
  have hlen : (pre.length + (packed args).length + (packed env).length - 1 + 2 ^ 64 - pre.length - 1) % 2 ^ 64 = T - 2 := by
    rw [show pre.length + (packed args).length + (packed env).length - 1 + 2 ^ 64 - pre.length - 1 = (T - 2) + 2 ^ 64 by omega,
      Nat.add_mod_right, Nat.mod_eq_of_lt (by omega)]
  have hinit : titleStart mem (starts pre.length args) (starts (pre.length + (packed args).length) env) =
      .ok { mem := mem, args := as, environ := es, start := pre.length, len := T - 2 } := by
    unfold titleStart
    rw [hda]
    simp only [Res.bind_eq, Res.bind_ok]
    cases args with
    | nil => exact absurd rfl ha
    | cons a args =>
      rw [starts] at hl1 hda ⊢
      unfold titleInit
      dsimp only
      rw [hl1]
      simp only [Res.bind_eq, Res.bind_ok, Option.getD_some]
      rw [hl2]
      simp only [Res.bind_ok]
      rw [hde, hlen]
      rfl
  have hset := setTitles_last hn ts hts t ht { mem := mem, args := as, environ := es, start := pre.length, len := T - 2 }
    (show T - 2 ≠ 0 by omega) (show pre.length + (T - 2) ≤ mem.length by omega)
  dsimp only at hset
  refine ⟨_, _, (titleText name t).take (T - 2 - 1), hinit, hset, ?_, ?_, ?_, ?_⟩
  · dsimp only
    have e1 : mem.take pre.length = pre := by rw [hm, List.take_left]
    have e2 : mem.drop (pre.length + (T - 2)) = (packed (args ++ env)).drop (T - 2) ++ post := by
      rw [hm, List.drop_append, List.drop_append]
      rw [List.drop_of_length_le (by omega), List.nil_append, show pre.length + (T - 2) - pre.length = T - 2 by omega,
        show T - 2 - (packed (args ++ env)).length = 0 by omega, List.drop_zero]
    rw [e1, e2, List.length_take, Nat.min_comm]
    simp
  · rw [List.length_take]; omega
  · intro c hc
    exact titleText_printable hn ht c (List.mem_of_mem_take hc)
  · intro hp
    rw [titleText_plain hp, List.take_take, show T - 2 - 1 = T - 3 by omega, Nat.min_comm]

/-- A command line and an environment. -/
def sampleMem : Bytes := lit "stack" ++ (packed [lit "ladvd", lit "-a", lit "-z", lit "PATH=/bin", lit "HOME=/root"] ++ lit "tail")

example : (∀ p ∈ starts 5 [lit "ladvd", lit "-a", lit "-z"] ++ starts 17 [lit "PATH=/bin", lit "HOME=/root"], p < sampleMem.length) ∧
    (match titleStart sampleMem (starts 5 [lit "ladvd", lit "-a", lit "-z"]) (starts 17 [lit "PATH=/bin", lit "HOME=/root"]) with
    | .ok pr => match setTitles (lit "ladvd") [lit "child"] pr with
      | .ok pr' => some (pr'.mem, pr'.args, pr'.environ)
      | _ => none
    | _ => none) = some (lit "stack" ++ lit "ladvd: child" ++ List.replicate 19 0 ++ [0x74, 0] ++ lit "tail",
      [.own (lit "ladvd"), .own (lit "-a"), .own (lit "-z")], [.own (lit "PATH=/bin"), .own (lit "HOME=/root")]) := by
  decide +kernel

example : IsString sampleMem 5 ∧ sampleMem[5]? ≠ some 0 ∧ Within sampleMem 5 9 ∧ Plain (lit "ladvd" ++ lit ": " ++ lit "parent [priv]") := by
  refine ⟨⟨10, by decide, by decide +kernel⟩, by decide +kernel, ⟨by decide, ?_⟩, by decide +kernel⟩
  intro b h1 h2
  have : b = 5 ∨ b = 6 ∨ b = 7 ∨ b = 8 := by omega
  rcases this with rfl | rfl | rfl | rfl <;> decide +kernel

/-- The missing case: called with the empty string as its name, without further arguments or environment, the length of the memory for the title is
taken for 2 ^ 64 - 1; setting a title overwrites everything behind it. -/
theorem C58_empty_name : ∃ pr, titleStart (0 :: lit "other") [0] [] = .ok pr ∧ setTitle (lit "ladvd") (lit "child") pr = .oob :=
  ⟨{ mem := 0 :: lit "other", args := [.own []], environ := [], start := 0, len := 18446744073709551615 }, by decide +kernel,
    show setTitle (lit "ladvd") (lit "child")
      { mem := 0 :: lit "other", args := [.own []], environ := [], start := 0, len := 18446744073709551615 } = .oob by decide +kernel⟩

end Ladvd.Props
