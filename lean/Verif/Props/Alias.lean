import Verif.Lemmas.Alias
import Verif.Props.Send
/-!
# C79: with `-z` the kernel's description of an interface follows its neighbours
-/

namespace Ladvd.Props

open Spec

/-- The description that befits interface `i`, cut to what a description can hold. -/
def told (c : Conf) (s : Described) (i : Nat) : Bytes := (description (c.opts.has OPT_USEDESCR) s.daemon.child.queue i).take 63

/-- No neighbour on the interface uses the all-zero address, and there are fewer than 65536 (see C32). -/
def Ordinary (s : Described) (i : Nat) : Prop :=
  [0, 0, 0, 0, 0, 0] ∉ stations s.daemon.child.queue i ∧ (stations s.daemon.child.queue i).length < 65536

instance (s : Described) (i : Nat) : Decidable (Ordinary s i) := by unfold Ordinary; infer_instance

theorem told_eq {c : Conf} {ifName : Nat → Option Bytes} {s0 s : Described} {es : List Event} (h : Lives c ifName s0 es s) {i : Nat}
    (ho : Ordinary s i) : descrText c.opts i s.daemon.child.queue = told c s i := by
  obtain ⟨es', hr, -⟩ := described_daemon h.run
  obtain ⟨ops, hops, -⟩ := run_ops hr
  rw [h.start.2] at hops
  exact C32_text_partial c.opts [] ops _ hops i ho.1 ho.2

theorem lives_unique {c : Conf} {ifName : Nat → Option Bytes} {s0 s s' : Described} {es : List Event} (h : Lives c ifName s0 es s)
    (h' : Lives c ifName s0 es s') : s = s' := by
  have a := h.run
  rw [h'.run] at a
  injection a with a
  exact a.symm

theorem takeWhile_clean (p : UInt8 → Bool) : ∀ (t : Bytes), (∀ b ∈ t, p b = true) → t.takeWhile p = t
  | [], _ => rfl
  | b :: t, h => by
    rw [List.takeWhile_cons, if_pos (h b List.mem_cons_self), takeWhile_clean p t (fun x hx => h x (List.mem_cons_of_mem _ hx))]

theorem firstLine_file (t : Bytes) : firstLine 63 (aliasFile t) = firstLine 63 t := by
  unfold aliasFile
  split
  · next h => rw [h]
  · unfold firstLine
    rw [List.take_append]
    generalize 63 - t.length = k
    induction t.take 63 with
    | nil => cases k <;> rfl
    | cons b l ih =>
      rw [List.cons_append, List.takeWhile_cons, List.takeWhile_cons, ih]

/-- What the daemon takes for the description of interface `i`. -/
def seen (ifName : Nat → Option Bytes) (a : Aliases) (i : Nat) : Bytes := (((ifName i).bind a).map (firstLine 63)).getD []

/-- The daemon learns the alias of each interface: its first line, at most 63 bytes.  What is left in the request from the previous answer does not
matter. -/
theorem C79_read (c : Conf) (ifName : Nat → Option Bytes) (hn : NamesOk ifName) (a : Aliases) (s : Parent) (i : Nat) (hi : i < 2 ^ 32) (left : Bytes)
    (hl : left.length ≤ 512) :
    ∃ x, fetchAlias c (aliasEnv ifName a) s i left = .ok x ∧ (x.map (fun d => (d.takeWhile (· ≠ 0)).take 63)).getD [] = seen ifName a i := by
  refine ⟨_, fetchAlias_eq c hn.short a s hi hl, ?_⟩
  have e : ((ifName i).bind a).map (fun t => firstLine 63 (aliasFile t)) = ((ifName i).bind a).map (firstLine 63) := by
    congr 1
    funext t
    exact firstLine_file t
  dsimp only
  rw [e]
  show _ = seen ifName a i
  rw [show (((ifName i).bind a).map (firstLine 63)).getD [] = seen ifName a i from rfl]
  have hlen : (seen ifName a i).length ≤ 63 := by
    unfold seen
    cases (ifName i).bind a with
    | none => exact Nat.zero_le _
    | some t => exact firstLine_length 63 t
  have hnul : ∀ b ∈ seen ifName a i, b ≠ 0 := by
    unfold seen
    cases (ifName i).bind a with
    | none => intro b hb; cases hb
    | some t =>
      intro b hb
      have : ∀ l : Bytes, ∀ b ∈ l.takeWhile (fun b => b ≠ 0x0a && b ≠ 0), b ≠ 0 := by
        intro l
        induction l with
        | nil => intro b hb; cases hb
        | cons x l ih =>
          intro b hb
          rw [List.takeWhile_cons] at hb
          split at hb
          · next hx =>
            rcases List.mem_cons.mp hb with rfl | hb
            · intro hc
              rw [hc] at hx
              exact absurd hx (by decide)
            · exact ih b hb
          · cases hb
      exact this _ b hb
  split
  · next h => rw [h]; rfl
  · rw [Option.map_some, Option.getD_some]
    obtain ⟨k, hk⟩ : ∃ k, 512 - (seen ifName a i).length = k + 1 := ⟨511 - (seen ifName a i).length, by omega⟩
    rw [hk, List.replicate_succ]
    have := cstr_line (rest := List.replicate k 0) hnul
    unfold cstr at this
    rw [this, List.take_of_length_le hlen]

/-- The privileged process serves whatever is asked: an event that the daemon handles has an outcome here. -/
theorem C79_served (c : Conf) (ifName : Nat → Option Bytes) (s0 s1 : Described) (es : List Event) (hl : Lives c ifName s0 es s1) (e : Event)
    (he : SaneEvent e ∧ Captured e ∧ Clocked e) (d : Daemon) (hd : daemonStep c s1.daemon (withAlias c ifName s1.alias e) = .ok d) :
    ∃ s, Lives c ifName s0 (es ++ [e]) s ∧ s.daemon = d := by
  obtain ⟨es', hr, hf⟩ := described_daemon hl.run
  have hr' : daemonRun c (es' ++ [withAlias c ifName s1.alias e]) s0.daemon = .ok d := by
    rw [daemonRun_append, hr, Res.bind_ok, daemonRun, hd, Res.bind_ok]
    rfl
  have hev : ∀ x ∈ es' ++ [withAlias c ifName s1.alias e], SaneEvent x ∧ Captured x := by
    intro x hx
    rcases List.mem_append.mp hx with hx | hx
    · obtain ⟨y, hy, a, rfl⟩ := hf x hx
      exact ⟨withAlias_sane (hl.events y hy).1 _ _ _, withAlias_captured (hl.events y hy).2.1 _ _ _⟩
    · rw [List.mem_singleton.mp hx]
      exact ⟨withAlias_sane he.1 _ _ _, withAlias_captured he.2.1 _ _ _⟩
  have hg : Good d := good_run hl.start.1 (fun x hx => (hev x hx).1) hr'
  have hq := (stored_run hl.start.2 (fun x hx => (hev x hx).2) hr').1
  obtain ⟨R, ho, ha⟩ := step_out (withAlias_clocked he.2.2 c ifName s1.alias) hd
  obtain ⟨a', e1, -⟩ := servedAll_eq c hl.names R s1.alias (by
    intro r hr
    obtain ⟨n, hn, ht, -⟩ := ha.only r hr
    rw [ht]
    exact ⟨good_index hg hn, descrText_length _ _ _, descrText_nul _ _ (fun x hx => stored_safe (hq x hx))⟩)
  have hstep : describedStep c ifName s1 e = .ok ⟨d, a'⟩ := by
    rw [describedStep, hd, Res.bind_ok, ho, List.drop_left, e1, Res.bind_ok]
  refine ⟨⟨d, a'⟩, ⟨hl.names, hl.start, ?_, ?_⟩, rfl⟩
  · intro x hx
    rcases List.mem_append.mp hx with hx | hx
    · exact hl.events x hx
    · rw [List.mem_singleton.mp hx]; exact he
  · rw [describedRun_append, hl.run, Res.bind_ok, describedRun, hstep, Res.bind_ok]
    rfl

/-- In a round the stored descriptions become those in the kernel. -/
theorem C79_refresh (c : Conf) (ifName : Nat → Option Bytes) (s0 s1 s : Described) (es : List Event) (k : Kernel) (m : Media) (now : Int)
    (hl : Lives c ifName s0 es s1) (hk : Sane k) (hi : k.ifaddrs ≠ none) (hs : describedStep c ifName s1 (.timer k m now) = .ok s) :
    ∀ n ∈ s.daemon.child.netifs, n.description = seen ifName s1.alias n.index := by
  obtain ⟨h1, -⟩ := describedStep_ok hs
  obtain ⟨addrs, ha⟩ := Option.ne_none_iff_exists'.mp hi
  rw [withAlias] at h1
  generalize hr : readAlias c ifName s1.alias = read at h1
  have hk' : Sane { k with alias := read } := sane_alias hk read
  have hfetch : ∀ x ∈ (daemonFetch c { k with alias := read } s1.daemon).1.child.netifs, x.description = seen ifName s1.alias x.index := by
    intro x hx
    obtain ⟨hok, hlk, -⟩ := sane_fetch hk' (addrs := addrs) ha
    obtain ⟨e, he, hxi, -, -, hd, -⟩ := C40_record c.opts c.names c.mgmt { k with alias := read }
      ⟨s1.daemon.child.netifs, s1.daemon.sys, s1.daemon.mnetif, s1.daemon.closed⟩ addrs ha hok hl.good.nodup x hx
    obtain ⟨y, hy, hv⟩ := C79_read c ifName hl.names s1.alias {} e.index (hlk e he).1 [] (Nat.zero_le _)
    have hread : read e.index = y := by rw [← hr, readAlias, hy]
    rw [hd, hxi]
    show ((read e.index).map _).getD [] = _
    rw [hread]
    exact hv
  have transfer : ∀ {f : Netif → Netif} {l l' : List Netif}, (∀ n, (f n).index = n.index ∧ (f n).description = n.description) → l'.map f = l.map f →
      (∀ x ∈ l, x.description = seen ifName s1.alias x.index) → ∀ x ∈ l', x.description = seen ifName s1.alias x.index := by
    intro f l l' hf hm hall x hx
    have : f x ∈ l.map f := by rw [← hm]; exact List.mem_map_of_mem hx
    obtain ⟨y, hy, he⟩ := List.mem_map.mp this
    have := hall y hy
    rw [← (hf y).1, ← (hf y).2, he, (hf x).1, (hf x).2] at this
    exact this
  rcases step_bare h1 with ⟨k2, m2, now2, d1, he, hround, hb, -⟩ | ⟨_, _, _, he, -⟩ | ⟨hno, -⟩
  · injection he with e1 e2 e3
    subst e1 e2 e3
    refine transfer (f := bare) (fun _ => ⟨rfl, rfl⟩) hb ?_
    rcases sendRound_ok hround with ⟨-, i, x, hc, -⟩ | ⟨rfl, -⟩ | ⟨-, -, -, hsend⟩
    · cases hc
    · exact hfetch
    · obtain ⟨new, hsent, -⟩ := sendNetifs_ok (mediaFun _) _ hsend
      exact transfer (f := static) (fun _ => ⟨rfl, rfl⟩) hsent.same hfetch
  · cases he
  · exact absurd rfl (hno _ _ _)

/-- What an event does to the alias of an interface that the daemon knows: if the description that befits the interface changes, or a frame was received on
it, the alias is replaced by that description if this differs from the stored one; if neither is the case, the alias is kept or replaced by that
description. -/
theorem C79_exact (c : Conf) (ifName : Nat → Option Bytes) (s0 s1 s : Described) (es : List Event) (e : Event) (hl : Lives c ifName s0 (es ++ [e]) s)
    (h1 : Lives c ifName s0 es s1) (hz : c.opts.testBit 11 = true) (n : Netif) (hn : n ∈ s.daemon.child.netifs) (name old : Bytes)
    (hname : ifName n.index = some name) (ha : s1.alias name = some old) (ho1 : Ordinary s1 n.index) (ho : Ordinary s n.index) :
    let new := told c s n.index
    (told c s1 n.index ≠ new ∨ Hears s1.daemon s.daemon e n.index →
      s.alias name = some (if new = n.description then old else aliasStored old new)) ∧
    (s.alias name = some old ∨ s.alias name = some (aliasStored old new) ∧ new ≠ n.description) := by
  intro new
  obtain ⟨s1', h1', hc, hstep⟩ := hl.before
  have : s1' = s1 := lives_unique h1' h1
  subst this
  obtain ⟨R, -, hask, -, hal⟩ := described_core hl.names hl.good hl.safe hc hstep
  have hbi := byIndex_of_mem hl.good.nodup hn
  have hal := hal n.index name hname
  have hnew : descrText c.opts n.index s.daemon.child.queue = new := told_eq hl ho
  rw [hnew, ha, Option.map_some] at hal
  have hin : (n.index, new) ∈ R → new ≠ n.description := by
    intro hm
    obtain ⟨n', hn', -, hne⟩ := hask.only _ hm
    rw [hbi] at hn'
    cases hn'
    exact hne
  constructor
  · intro hcause
    rw [hal]
    by_cases heq : new = n.description
    · rw [if_pos heq, if_neg (fun hm => hin hm heq)]
    · rw [if_neg heq, if_pos]
      have := hask.all hz n.index n hbi ?_ (by rw [hnew]; exact heq)
      · rwa [hnew] at this
      · rcases hcause with hcause | hcause
        · right
          unfold TextChanges
          rw [hnew, told_eq h1 ho1]
          exact fun h => hcause h.symm
        · exact Or.inl hcause
  · rw [hal]
    by_cases hm : (n.index, new) ∈ R
    · rw [if_pos hm]; exact Or.inr ⟨rfl, hin hm⟩
    · rw [if_neg hm]; exact Or.inl rfl

/-- An event without a refresh of the interfaces. -/
def Unrefreshed : Event → Prop
  | .timer _ _ _ => False
  | .link _ _ ether running _ => ¬ (ether = true ∧ running = true)
  | _ => True

theorem unrefreshed_netifs {c : Conf} {ifName : Nat → Option Bytes} {s s' : Described} {e : Event} (he : Unrefreshed e)
    (h : describedStep c ifName s e = .ok s') : s'.daemon.child.netifs.map bare = s.daemon.child.netifs.map bare := by
  obtain ⟨h1, -⟩ := describedStep_ok h
  rcases step_bare h1 with ⟨k, m, now, d1, hc, -⟩ | ⟨k, m, i, hc, -⟩ | ⟨-, -, hb, -⟩
  · cases e with
    | timer => exact absurd he (fun h => h)
    | link => cases hc
    | recv => cases hc
    | accept => cases hc
    | write => cases hc
  · cases e with
    | timer => cases hc
    | link k2 m2 a b i2 =>
      injection hc with h1 h2 h3 h4 h5
      exact absurd ⟨h3, h4⟩ he
    | recv => cases hc
    | accept => cases hc
    | write => cases hc
  · exact hb

/-- The description follows the neighbours between two refreshes: whenever the description that befits a known interface differs from that at the beginning of
the interval, the alias is that description, provided it is neither empty nor what the last refresh found.  The full claim has no
such proviso; it fails for both, see `C79_stays` and `C79_returns`.  (A line feed at the end is dropped by the kernel.) -/
theorem C79_follows_partial (c : Conf) (ifName : Nat → Option Bytes) (s0 s1 s : Described) (pre es : List Event)
    (h1 : Lives c ifName s0 pre s1) (hz : c.opts.testBit 11 = true) (hl : Lives c ifName s0 (pre ++ es) s) (hu : ∀ e ∈ es, Unrefreshed e)
    (n : Netif) (hn : n ∈ s1.daemon.child.netifs) (name old : Bytes)
    (hname : ifName n.index = some name) (ha : s1.alias name = some old)
    (ho : ∀ es1 es2 s', es = es1 ++ es2 → Lives c ifName s0 (pre ++ es1) s' → Ordinary s' n.index)
    (hch : told c s n.index ≠ told c s1 n.index) (hne : told c s n.index ≠ []) (hst : told c s n.index ≠ n.description)
    (hlf : (told c s n.index).getLast? ≠ some 0x0a) :
    s.alias name = some (told c s n.index) := by
  have key : ∀ (len : Nat) (es1 es2 : List Event) (s' : Described), es1.length = len → es = es1 ++ es2 → Lives c ifName s0 (pre ++ es1) s' →
      s'.daemon.child.netifs.map bare = s1.daemon.child.netifs.map bare ∧ ∃ x, s'.alias name = some x ∧
        (told c s' n.index ≠ told c s1 n.index → told c s' n.index ≠ [] → told c s' n.index ≠ n.description → (told c s' n.index).getLast? ≠ some 0x0a →
          x = told c s' n.index) := by
    intro len
    induction len with
    | zero =>
      intro es1 es2 s' hlen _ h
      have h0 : es1 = [] := List.eq_nil_of_length_eq_zero hlen
      subst h0
      rw [List.append_nil] at h
      have : s' = s1 := lives_unique h h1
      subst this
      exact ⟨rfl, old, ha, fun hc => absurd rfl hc⟩
    | succ len ih =>
      intro es1 es2 s' hlen hes h
      rcases List.eq_nil_or_concat es1 with rfl | ⟨es3, e, rfl⟩
      · cases hlen
      · rw [List.concat_eq_append] at hlen hes h
        rw [List.length_append, List.length_singleton] at hlen
        have h' := h
        rw [← List.append_assoc] at h'
        obtain ⟨s2, h2, -, hstep⟩ := h'.before
        obtain ⟨hb, x, hx, himp⟩ := ih es3 ([e] ++ es2) s2 (by omega) (by rw [hes, List.append_assoc]) h2
        have hb' := unrefreshed_netifs (hu e (by rw [hes]; simp)) hstep
        have hball := hb'.trans hb
        refine ⟨hball, ?_⟩
        have : bare n ∈ s'.daemon.child.netifs.map bare := by rw [hball]; exact List.mem_map_of_mem hn
        obtain ⟨n', hn', hnn⟩ := List.mem_map.mp this
        have hi : n'.index = n.index := (congrArg (fun x : Netif => x.index) hnn :)
        have hd : n'.description = n.description := (congrArg (fun x : Netif => x.description) hnn :)
        have ho2 := ho es3 ([e] ++ es2) s2 (by rw [hes, List.append_assoc]) h2
        have ho' := ho (es3 ++ [e]) es2 s' hes h
        obtain ⟨c1, c2⟩ := C79_exact c ifName s0 s2 s' (pre ++ es3) e h' h2 hz n' hn' name x (by rw [hi]; exact hname) hx
          (by rw [hi]; exact ho2) (by rw [hi]; exact ho')
        rw [hi, hd] at c1 c2
        by_cases hsame : told c s2 n.index = told c s' n.index
        · rw [hsame] at himp
          rcases c2 with c2 | ⟨c2, -⟩
          · exact ⟨x, c2, himp⟩
          · refine ⟨_, c2, ?_⟩
            intro _ k2 _ k4
            unfold aliasStored
            rw [if_neg k2, if_neg k4]
        · have c1 := c1 (Or.inl hsame)
          refine ⟨_, c1, ?_⟩
          intro _ k2 k3 k4
          rw [if_neg k3]
          unfold aliasStored
          rw [if_neg k2, if_neg k4]
  obtain ⟨-, x, hx, himp⟩ := key es.length es [] s rfl (by rw [List.append_nil]) hl
  rw [hx, himp hch hne hst hlf]

/-- The description settles: if it befits the interface from a refresh until a frame is received there, the alias is right after this frame (its first line,
which is all of it unless something else than the daemon has set it).  The full claim has no provisos; it fails for no neighbours and for names with a line feed, see
`C79_stays` and `C79_newline`. -/
theorem C79_settles_partial (c : Conf) (ifName : Nat → Option Bytes) (s0 s1 s2 s : Described) (pre es : List Event) (k : Kernel) (m : Media) (now : Int)
    (e : Event) (h1 : Lives c ifName s0 pre s1) (hz : c.opts.testBit 11 = true) (hk : k.ifaddrs ≠ none)
    (h2 : Lives c ifName s0 (pre ++ [.timer k m now]) s2) (s3 : Described) (h3 : Lives c ifName s0 (pre ++ [.timer k m now] ++ es) s3)
    (hl : Lives c ifName s0 (pre ++ [.timer k m now] ++ es ++ [e]) s) (hu : ∀ x ∈ es ++ [e], Unrefreshed x)
    (n : Netif) (hn : n ∈ s2.daemon.child.netifs) (name old : Bytes) (hname : ifName n.index = some name) (ha : s1.alias name = some old)
    (text : Bytes) (ho1 : Ordinary s1 n.index) (ho : ∀ es1 es2 s', es ++ [e] = es1 ++ es2 → Lives c ifName s0 (pre ++ [.timer k m now] ++ es1) s' →
      Ordinary s' n.index ∧ told c s' n.index = text)
    (hh : Hears s3.daemon s.daemon e n.index) (hne : text ≠ []) (hlf : 0x0a ∉ text) :
    (s.alias name).map (firstLine 63) = some text := by
  have hev : SaneEvent (.timer k m now) := (h2.events _ (by simp)).1
  have hst2 : describedStep c ifName s1 (.timer k m now) = .ok s2 := by
    obtain ⟨s1', h1', -, hst⟩ := h2.before
    rw [← lives_unique h1' h1]
    exact hst
  have hd := C79_refresh c ifName s0 s1 s2 pre k m now h1 hev hk hst2 n hn
  have hold : n.description = firstLine 63 old := by
    rw [hd]; unfold seen; rw [hname, Option.bind_some, ha]; rfl
  obtain ⟨hoT, hT⟩ := ho [] (es ++ [e]) s2 rfl (by rw [List.append_nil]; exact h2)
  have htimer := (C79_exact c ifName s0 s1 s2 pre (.timer k m now) h2 h1 hz n hn name old hname ha ho1 hoT).2
  rw [hT] at htimer
  have key : ∀ (len : Nat) (es1 es2 : List Event) (s' : Described), es1.length = len → es ++ [e] = es1 ++ es2 →
      Lives c ifName s0 (pre ++ [.timer k m now] ++ es1) s' →
      s'.daemon.child.netifs.map bare = s2.daemon.child.netifs.map bare ∧ ∃ x, s'.alias name = some x ∧ (text = n.description → x = old) := by
    intro len
    induction len with
    | zero =>
      intro es1 es2 s' hlen _ h
      have h0 : es1 = [] := List.eq_nil_of_length_eq_zero hlen
      subst h0
      rw [List.append_nil] at h
      have : s' = s2 := lives_unique h h2
      subst this
      refine ⟨rfl, ?_⟩
      rcases htimer with h | ⟨h, hx⟩
      · exact ⟨old, h, fun _ => rfl⟩
      · exact ⟨_, h, fun hc => absurd hc hx⟩
    | succ len ih =>
      intro es1 es2 s' hlen hes h
      rcases List.eq_nil_or_concat es1 with rfl | ⟨es3, e', rfl⟩
      · cases hlen
      · rw [List.concat_eq_append] at hlen hes h
        rw [List.length_append, List.length_singleton] at hlen
        have h' := h
        rw [← List.append_assoc] at h'
        obtain ⟨s4, h4, -, hstep⟩ := h'.before
        obtain ⟨hb, x, hx, himp⟩ := ih es3 ([e'] ++ es2) s4 (by omega) (by rw [hes, List.append_assoc]) h4
        have hb' := unrefreshed_netifs (hu e' (by rw [hes]; simp)) hstep
        have hball := hb'.trans hb
        refine ⟨hball, ?_⟩
        have : bare n ∈ s'.daemon.child.netifs.map bare := by rw [hball]; exact List.mem_map_of_mem hn
        obtain ⟨n', hn', hnn⟩ := List.mem_map.mp this
        have hi : n'.index = n.index := (congrArg (fun x : Netif => x.index) hnn :)
        have hd : n'.description = n.description := (congrArg (fun x : Netif => x.description) hnn :)
        obtain ⟨ho2, -⟩ := ho es3 ([e'] ++ es2) s4 (by rw [hes, List.append_assoc]) h4
        obtain ⟨ho', hT'⟩ := ho (es3 ++ [e']) es2 s' hes h
        obtain ⟨-, c2⟩ := C79_exact c ifName s0 s4 s' (pre ++ [.timer k m now] ++ es3) e' h' h4 hz n' hn' name x (by rw [hi]; exact hname) hx
          (by rw [hi]; exact ho2) (by rw [hi]; exact ho')
        rw [hi, hd, hT'] at c2
        rcases c2 with c2 | ⟨c2, hx2⟩
        · exact ⟨x, c2, himp⟩
        · exact ⟨_, c2, fun hc => absurd hc hx2⟩
  obtain ⟨hb3, x, hx, himp⟩ := key es.length es [e] s3 rfl rfl h3
  obtain ⟨s3', h3', -, hstep⟩ := hl.before
  have : s3' = s3 := lives_unique h3' h3
  subst this
  have hball := (unrefreshed_netifs (hu e (by simp)) hstep).trans hb3
  have : bare n ∈ s.daemon.child.netifs.map bare := by rw [hball]; exact List.mem_map_of_mem hn
  obtain ⟨n', hn', hnn⟩ := List.mem_map.mp this
  have hi : n'.index = n.index := (congrArg (fun x : Netif => x.index) hnn :)
  have hd : n'.description = n.description := (congrArg (fun x : Netif => x.description) hnn :)
  obtain ⟨ho3, -⟩ := ho es [e] s3' rfl h3
  obtain ⟨hoe, hTe⟩ := ho (es ++ [e]) [] s (by rw [List.append_nil]) (by rw [← List.append_assoc]; exact hl)
  obtain ⟨c1, -⟩ := C79_exact c ifName s0 s3' s (pre ++ [.timer k m now] ++ es) e hl h3 hz n' hn' name x (by rw [hi]; exact hname) hx
    (by rw [hi]; exact ho3) (by rw [hi]; exact hoe)
  rw [hi, hd, hTe] at c1
  rw [c1 (Or.inr hh), Option.map_some]
  split
  · next ht => rw [himp ht, ← hold, ht]
  · unfold aliasStored
    rw [if_neg hne, if_neg (fun hc => hlf (List.mem_of_getLast? hc))]
    congr 1
    have hlen : text.length ≤ 63 := by rw [← hTe]; exact List.length_take_le _ _
    have hnul : (0 : UInt8) ∉ text := by
      rw [← hTe, ← told_eq hl hoe]
      exact descrText_nul c.opts n.index hl.safe
    unfold firstLine
    rw [List.take_of_length_le hlen]
    exact takeWhile_clean _ _ (fun b hb => by
      rw [Bool.and_eq_true, decide_eq_true_eq, decide_eq_true_eq]
      exact ⟨fun hc => hlf (hc ▸ hb), fun hc => hnul (hc ▸ hb)⟩)

/-- Without `-z` no alias is ever written. -/
theorem C79_off (c : Conf) (ifName : Nat → Option Bytes) (s0 s : Described) (es : List Event) (hl : Lives c ifName s0 es s)
    (hz : c.opts.testBit 11 = false) : s.alias = s0.alias := by
  have := described_induction (c := c) (ifName := ifName) (s0 := s0)
    (P := fun es s => (∀ e ∈ es, SaneEvent e ∧ Captured e ∧ Clocked e) → s.alias = s0.alias) (fun _ => rfl) ?_ es s hl.run
  · exact this hl.events
  · intro es e s s' hr ih hs hev
    have hl' : Lives c ifName s0 (es ++ [e]) s' := ⟨hl.names, hl.start, hev, by rw [describedRun_append, hr, Res.bind_ok, describedRun, hs, Res.bind_ok]; rfl⟩
    rw [← ih (fun x hx => hev x (by simp [hx]))]
    obtain ⟨R, -, hask, hkeep, -⟩ := described_core hl.names hl'.good hl'.safe (hev e (by simp)).2.2 hs
    funext name
    exact hkeep name (by rw [hask.off hz]; nofun)

/-- The entries of the table come from frames received. -/
theorem described_entries {c : Conf} {ifName : Nat → Option Bytes} {s0 s : Described} {es : List Event} (hl : Lives c ifName s0 es s) {i : Nat}
    (hi : ∀ now r, .recv now r ∈ es → r.index ≠ i) : descrText c.opts i s.daemon.child.queue = [] := by
  obtain ⟨es', hr, hf⟩ := described_daemon hl.run
  obtain ⟨ops, ho, hf2⟩ := run_ops hr
  have := (entries_run (P := fun e => e.index ≠ i) (fun e i l h => h) ?_ ?_ ?_ ho).1
  · have he : onInterface s.daemon.child.queue i = onInterface [] i := by
      unfold onInterface
      rw [List.filter_nil, List.filter_eq_nil_iff]
      intro e he h
      exact this e he (beq_iff_eq.mp h)
    rw [descrText_congr he]
    rfl
  · intro st t r subif m hm ht
    obtain ⟨e', he', hop⟩ := hf2 _ hm
    obtain ⟨e, he, a, rfl⟩ := hf e' he'
    have hev : withAlias c ifName a e = .recv (some t) r := by
      generalize withAlias c ifName a e = e' at hop
      cases hop
      rfl
    exact hi (some t) r (by rw [← withAlias_recv.mp hev]; exact he)
  · rw [hl.start.2]; intro e he; cases he
  · rw [hl.start.2]; intro e he; cases he

/-- A step of a history that ends in `s`, seen from one interface name. -/
theorem described_name {c : Conf} {ifName : Nat → Option Bytes} {s0 s1 s : Described} {es : List Event} {e : Event} (hl : Lives c ifName s0 (es ++ [e]) s)
    (hs : describedStep c ifName s1 e = .ok s) (name : Bytes) : s.alias name = s1.alias name ∨
      ∃ i, ifName i = some name ∧ s.alias name = (s1.alias name).map (aliasStored · (descrText c.opts i s.daemon.child.queue)) := by
  obtain ⟨R, -, -, hkeep, hset⟩ := described_core hl.names hl.good hl.safe (hl.events e (by simp)).2.2 hs
  by_cases hr : ∀ r ∈ R, ifName r.1 ≠ some name
  · exact Or.inl (hkeep name hr)
  · have : ∃ i, ifName i = some name := by
      refine Classical.byContradiction fun hc => hr fun r _ h => hc ⟨r.1, h⟩
    obtain ⟨i, hi⟩ := this
    rw [hset i name hi]
    split
    · exact Or.inr ⟨i, hi, rfl⟩
    · exact Or.inl rfl

theorem aliasStored_descr (old : Bytes) (o : Opts) (i : Nat) (q : List Entry) : aliasStored old (descrText o i q) = old ∨
    ∃ t, aliasStored old (descrText o i q) = lit "connected to " ++ t ∧ t.length ≤ 50 := by
  rcases descrText_head o i q with h | ⟨t, h⟩
  · rw [h]; exact Or.inl rfl
  · right
    have hlen := descrText_length o i q
    rw [h] at hlen ⊢
    rw [List.length_append, show (lit "connected to ").length = 13 from by decide] at hlen
    unfold aliasStored
    rw [if_neg (by intro hc; rw [List.append_eq_nil_iff] at hc; exact absurd hc.1 (by decide))]
    split
    · next hlast =>
      cases t with
      | nil => exact absurd hlast (by decide)
      | cons b t =>
        refine ⟨(b :: t).dropLast, ?_, ?_⟩
        · rw [List.dropLast_append_of_ne_nil (by intro hc; cases hc)]
        · rw [List.length_dropLast]; omega
    · exact ⟨t, rfl, by omega⟩

/-- Over a whole history, the alias of an interface is the one it had at the start or a text "connected to ..." of at most 63 bytes; if nothing is received on an
interface its alias stays. -/
theorem C79_written (c : Conf) (ifName : Nat → Option Bytes) (s0 s : Described) (es : List Event) (hl : Lives c ifName s0 es s) (name : Bytes) :
    (s.alias name = s0.alias name ∨ ∃ t, s0.alias name ≠ none ∧ s.alias name = some (lit "connected to " ++ t) ∧ t.length ≤ 50) ∧
    ((∀ now r, .recv now r ∈ es → ifName r.index ≠ some name) → s.alias name = s0.alias name) := by
  have := described_induction (c := c) (ifName := ifName) (s0 := s0)
    (P := fun es s => (∀ e ∈ es, SaneEvent e ∧ Captured e ∧ Clocked e) →
      (s.alias name = s0.alias name ∨ ∃ t, s0.alias name ≠ none ∧ s.alias name = some (lit "connected to " ++ t) ∧ t.length ≤ 50) ∧
      ((∀ now r, .recv now r ∈ es → ifName r.index ≠ some name) → s.alias name = s0.alias name))
    (fun _ => ⟨Or.inl rfl, fun _ => rfl⟩) ?_ es s hl.run
  · exact this hl.events
  · intro es e s s' hr ih hs hev
    have hl' : Lives c ifName s0 (es ++ [e]) s' :=
      ⟨hl.names, hl.start, hev, by rw [describedRun_append, hr, Res.bind_ok, describedRun, hs, Res.bind_ok]; rfl⟩
    obtain ⟨ih1, ih2⟩ := ih (fun x hx => hev x (by simp [hx]))
    rcases described_name hl' hs name with hk | ⟨i, hi, hk⟩
    · rw [hk]
      exact ⟨ih1, fun h => ih2 (fun now r hm => h now r (by simp [hm]))⟩
    · constructor
      · cases ha : s.alias name with
        | none =>
          rw [hk, ha, Option.map_none]
          rcases ih1 with h | ⟨t, -, h, -⟩
          · left; rw [← h, ha]
          · rw [ha] at h; cases h
        | some old =>
          rw [hk, ha, Option.map_some]
          have h0 : s0.alias name ≠ none := by
            rcases ih1 with h | ⟨t, h, -, -⟩
            · rw [← h, ha]; nofun
            · exact h
          rcases aliasStored_descr old c.opts i s'.daemon.child.queue with h | ⟨t, h, ht⟩
          · rw [h, ← ha]; exact ih1
          · rw [h]; exact Or.inr ⟨t, h0, rfl, ht⟩
      · intro h
        rw [hk, described_entries hl' (i := i) (fun now r hm hri => h now r hm (by rw [hri]; exact hi))]
        rw [show (fun x : Bytes => aliasStored x []) = id from rfl, Option.map_id]
        exact ih2 (fun now r hm => h now r (by simp [hm]))

/-- So an alias that is not empty never becomes empty: in particular it stays when the last neighbour has gone. -/
theorem C79_never_empty (c : Conf) (ifName : Nat → Option Bytes) (s0 s : Described) (es : List Event) (hl : Lives c ifName s0 es s) (name old : Bytes)
    (ha : s0.alias name = some old) (hne : old ≠ []) : ∃ t, s.alias name = some t ∧ t ≠ [] := by
  rcases (C79_written c ifName s0 s es hl name).1 with h | ⟨t, -, h, -⟩
  · exact ⟨old, h.trans ha, hne⟩
  · exact ⟨_, h, by intro hc; cases hc⟩

/-! ## Samples -/

/-- A system with one network card. -/
def zKernel : Kernel :=
  ⟨some [⟨lit "eth0", .link true 4 [2, 0, 0, 0, 0, 3, 0, 0]⟩], fun _ => true, fun _ _ => { device := true }, fun _ => none, fun _ => none,
    fun _ => none, fun _ => none, fun _ => none, fun _ => none⟩

def zNames (i : Nat) : Option Bytes := if i = 4 then some (lit "eth0") else none

theorem zNames_ok : NamesOk zNames := by
  constructor
  · intro i n h
    unfold zNames at h
    split at h
    · cases h; decide
    · cases h
  · intro i j n h1 h2
    unfold zNames at h1 h2
    split at h1
    · split at h2
      · omega
      · cases h2
    · cases h1

/-- `ladvd -z`, without sending. -/
def zConf : Conf := { opts := (1 <<< OPT_RECV) ||| (1 <<< OPT_IFDESCR), enabled := fun p => p == .lldp }

/-- A 62 byte LLDP frame of the station `02:00:00:00:00:b`, with a lifetime of `ttl` seconds and a system name. -/
def zFrame (b ttl : UInt8) (name : Bytes) : Bytes :=
  ([0x01, 0x80, 0xc2, 0x00, 0x00, 0x0e, 2, 0, 0, 0, 0, b, 0x88, 0xcc] ++
    lldpEnc ([(1, [7, 0x61]), (2, [5, 0x62]), (3, [0, ttl]), (5, name)] ++ [(0, [])]) ++ List.replicate 62 0).take 62

/-- Its reception. -/
def zHello (now : Int) (b ttl : UInt8) (name : Bytes) : Event := .recv (some now) (rawOf ⟨4, .lldp, zFrame b ttl name⟩)

def zCaptured (b ttl : UInt8) (name : Bytes) : Bool :=
  (match bpfFilter protoFilter (zFrame b ttl name) with | .ok n => n != 0 | _ => false) &&
  decide (parentRecv 4 [(zFrame b ttl name).take 1518] = .ok [⟨4, .lldp, zFrame b ttl name⟩])

theorem zHello_ok {now : Int} {b ttl : UInt8} {name : Bytes} (hc : zCaptured b ttl name = true) (hn : 0 < now) :
    SaneEvent (zHello now b ttl name) ∧ Captured (zHello now b ttl name) ∧ Clocked (zHello now b ttl name) := by
  unfold zCaptured at hc
  rw [Bool.and_eq_true] at hc
  refine ⟨trivial, ⟨4, [zFrame b ttl name], [⟨4, .lldp, zFrame b ttl name⟩], ⟨4, .lldp, zFrame b ttl name⟩, ?_, of_decide_eq_true hc.2, List.mem_singleton.mpr rfl, rfl⟩, hn⟩
  intro f hf
  rw [List.mem_singleton.mp hf]
  cases hb : bpfFilter protoFilter (zFrame b ttl name) with
  | ok n =>
    rw [hb] at hc
    exact ⟨n, rfl, bne_iff_ne.mp hc.1⟩
  | fail => rw [hb] at hc; exact absurd hc.1 (by decide)
  | oob => rw [hb] at hc; exact absurd hc.1 (by decide)
  | abort => rw [hb] at hc; exact absurd hc.1 (by decide)
  | stuck => rw [hb] at hc; exact absurd hc.1 (by decide)

/-- The start: the alias of the card is `a`. -/
def zStart (a : Bytes) : Described := ⟨dSys, fun n => if n = lit "eth0" then some a else none⟩

/-- The texts that the daemon asks for and the alias after a history. -/
def zAfter (a : Bytes) (es : List Event) : Option (Bytes × List Bytes × Option Bytes) :=
  match describedRun zConf zNames es (zStart a) with
  | .ok s => some (told zConf s 4, s.daemon.child.out.map (·.2), s.alias (lit "eth0"))
  | _ => none

theorem zLives {a : Bytes} {es : List Event} {s : Described} (he : ∀ e ∈ es, SaneEvent e ∧ Captured e ∧ Clocked e)
    (h : describedRun zConf zNames es (zStart a) = .ok s) : Lives zConf zNames (zStart a) es s :=
  ⟨zNames_ok, ⟨(by decide +kernel : Started dSys), rfl⟩, he, h⟩

/-- Two states of a history. -/
def zBoth (a : Bytes) (pre es : List Event) (f : Described → Described → Bool) : Bool :=
  match describedRun zConf zNames pre (zStart a) with
  | .ok s1 => match describedRun zConf zNames es s1 with
    | .ok s => f s1 s
    | _ => false
  | _ => false

theorem zBoth_ok {a : Bytes} {pre es : List Event} {f : Described → Described → Bool} (h : zBoth a pre es f = true)
    (he : ∀ e ∈ pre ++ es, SaneEvent e ∧ Captured e ∧ Clocked e) :
    ∃ s1 s, Lives zConf zNames (zStart a) pre s1 ∧ Lives zConf zNames (zStart a) (pre ++ es) s ∧ describedRun zConf zNames es s1 = .ok s ∧ f s1 s = true := by
  unfold zBoth at h
  cases h1 : describedRun zConf zNames pre (zStart a) with
  | ok s1 =>
    rw [h1] at h
    dsimp only at h
    cases h2 : describedRun zConf zNames es s1 with
    | ok s =>
      rw [h2] at h
      exact ⟨s1, s, zLives (fun e hm => he e (List.mem_append_left _ hm)) h1, zLives he (by rw [describedRun_append, h1, Res.bind_ok, h2]), h2, h⟩
    | fail => rw [h2] at h; cases h
    | oob => rw [h2] at h; cases h
    | abort => rw [h2] at h; cases h
    | stuck => rw [h2] at h; cases h
  | fail => rw [h1] at h; cases h
  | oob => rw [h1] at h; cases h
  | abort => rw [h1] at h; cases h
  | stuck => rw [h1] at h; cases h

theorem zTimer_ok (now : Int) : SaneEvent (.timer zKernel {} now) ∧ Captured (.timer zKernel {} now) ∧ Clocked (.timer zKernel {} now) :=
  ⟨(by decide +kernel : Sane zKernel), trivial, trivial⟩

/-- With one neighbour the alias names it and its port. -/
theorem zAfter_one : zAfter (lit "uplink") [.timer zKernel {} 10, zHello 11 1 120 (lit "sw1")] =
    some (lit "connected to sw1 (b)", [lit "connected to sw1 (b)"], some (lit "connected to sw1 (b)")) := by decide +kernel

/-- After the only neighbour has gone no description befits the interface, and the daemon asks for none, but its name stays in the kernel. -/
theorem C79_stays :
    let es := [.timer zKernel {} 10, zHello 11 1 120 (lit "sw1"), .timer zKernel {} 200]
    (∀ e ∈ es, SaneEvent e ∧ Captured e ∧ Clocked e) ∧
    zAfter (lit "uplink") es = some ([], [lit "connected to sw1 (b)", []], some (lit "connected to sw1 (b)")) := by
  refine ⟨?_, by decide +kernel⟩
  intro e he
  simp only [List.mem_cons, List.not_mem_nil, or_false] at he
  rcases he with rfl | rfl | rfl <;> first | exact zTimer_ok _ | exact zHello_ok (by decide +kernel) (by decide)

/-- A second neighbour comes and says that it leaves before the interfaces are looked at again: the kernel keeps "2 peers". -/
theorem C79_returns :
    let es := [.timer zKernel {} 10, zHello 11 1 120 (lit "sw1"), .timer zKernel {} 20, zHello 21 2 120 (lit "sw2"), zHello 22 2 0 (lit "sw2"),
      zHello 23 1 120 (lit "sw1")]
    (∀ e ∈ es, SaneEvent e ∧ Captured e ∧ Clocked e) ∧
    zAfter (lit "uplink") es =
      some (lit "connected to sw1 (b)", [lit "connected to sw1 (b)", lit "connected to 2 peers"], some (lit "connected to 2 peers")) := by
  refine ⟨?_, by decide +kernel⟩
  intro e he
  simp only [List.mem_cons, List.not_mem_nil, or_false] at he
  rcases he with rfl | rfl | rfl | rfl | rfl | rfl <;> first | exact zTimer_ok _ | exact zHello_ok (by decide +kernel) (by decide)

/-- A name with a line feed reaches the kernel; the daemon reads back one line of it and asks again with every frame. -/
theorem C79_newline :
    let es := [.timer zKernel {} 10, zHello 11 1 120 (lit "sw\n1"), .timer zKernel {} 20, zHello 21 1 120 (lit "sw\n1"), .timer zKernel {} 30,
      zHello 31 1 120 (lit "sw\n1")]
    (∀ e ∈ es, SaneEvent e ∧ Captured e ∧ Clocked e) ∧
    zAfter (lit "uplink") es = some (lit "connected to sw\n1 (b)", List.replicate 3 (lit "connected to sw\n1 (b)"), some (lit "connected to sw\n1 (b)")) := by
  refine ⟨?_, by decide +kernel⟩
  intro e he
  simp only [List.mem_cons, List.not_mem_nil, or_false] at he
  rcases he with rfl | rfl | rfl | rfl | rfl | rfl <;> first | exact zTimer_ok _ | exact zHello_ok (by decide +kernel) (by decide)

/-- The hypotheses of `C79_read`, with the rest of an answer in the request. -/
example : NamesOk zNames ∧ (4 : Nat) < 2 ^ 32 ∧ (lit "old" ++ [0, 7]).length ≤ 512 ∧ seen zNames (zStart (lit "to the\nroof")).alias 4 = lit "to the" :=
  ⟨zNames_ok, by decide, by decide, by decide⟩

/-- The hypotheses of `C79_refresh`; the list of interfaces is not empty. -/
example : ∃ s1 s, Lives zConf zNames (zStart (lit "uplink")) [zHello 5 1 120 (lit "sw1")] s1 ∧ Sane zKernel ∧ zKernel.ifaddrs ≠ none ∧
    describedStep zConf zNames s1 (.timer zKernel {} 10) = .ok s ∧ s.daemon.child.netifs.map (fun n => (n.index, n.description)) = [(4, lit "uplink")] := by
  obtain ⟨s1, s, h1, -, hs, hf⟩ := zBoth_ok (a := lit "uplink") (pre := [zHello 5 1 120 (lit "sw1")]) (es := [.timer zKernel {} 10])
    (f := fun _ s => decide (s.daemon.child.netifs.map (fun n => (n.index, n.description)) = [(4, lit "uplink")])) (by decide +kernel) (by
      intro e he
      simp only [List.cons_append, List.nil_append, List.mem_cons, List.not_mem_nil, or_false] at he
      rcases he with rfl | rfl <;> first | exact zTimer_ok _ | exact zHello_ok (by decide +kernel) (by decide))
  obtain ⟨s', hst, hr⟩ := describedRun_cons hs
  cases hr
  exact ⟨s1, s, h1, (zTimer_ok 0).1, by decide, hst, of_decide_eq_true hf⟩

/-- The hypotheses of `C79_exact` and `C79_follows_partial`: a second neighbour turns up. -/
example : ∃ s1 s, Lives zConf zNames (zStart (lit "uplink")) [.timer zKernel {} 10, zHello 11 1 120 (lit "sw1")] s1 ∧
    Lives zConf zNames (zStart (lit "uplink")) ([.timer zKernel {} 10, zHello 11 1 120 (lit "sw1")] ++ [zHello 12 2 120 (lit "sw2")]) s ∧
    (∀ e ∈ [zHello 12 2 120 (lit "sw2")], Unrefreshed e) ∧ Ordinary s1 4 ∧ Ordinary s 4 ∧ s1.alias (lit "eth0") = some (lit "connected to sw1 (b)") ∧
    s1.daemon.child.netifs.map (fun n => (n.index, n.description)) = [(4, lit "uplink")] ∧ told zConf s 4 = lit "connected to 2 peers" ∧
    told zConf s1 4 = lit "connected to sw1 (b)" ∧ s.alias (lit "eth0") = some (lit "connected to 2 peers") := by
  obtain ⟨s1, s, h1, h2, hs, hf⟩ := zBoth_ok (a := lit "uplink") (pre := [.timer zKernel {} 10, zHello 11 1 120 (lit "sw1")]) (es := [zHello 12 2 120 (lit "sw2")])
    (f := fun s1 s => decide (Ordinary s1 4 ∧ Ordinary s 4 ∧ s1.alias (lit "eth0") = some (lit "connected to sw1 (b)") ∧
      s1.daemon.child.netifs.map (fun n => (n.index, n.description)) = [(4, lit "uplink")] ∧ told zConf s 4 = lit "connected to 2 peers" ∧
      told zConf s1 4 = lit "connected to sw1 (b)" ∧ s.alias (lit "eth0") = some (lit "connected to 2 peers"))) (by decide +kernel) (by
      intro e he
      simp only [List.cons_append, List.nil_append, List.mem_cons, List.not_mem_nil, or_false] at he
      rcases he with rfl | rfl | rfl <;> first | exact zTimer_ok _ | exact zHello_ok (by decide +kernel) (by decide))
  exact ⟨s1, s, h1, h2, fun e he => by rw [List.mem_singleton.mp he]; trivial, of_decide_eq_true hf⟩

/-- The hypotheses of `C79_settles_partial`: `C79_returns` goes on with a refresh and another frame, which sets the alias right. -/
example : ∃ s1 s, Lives zConf zNames (zStart (lit "uplink")) ([.timer zKernel {} 10, zHello 11 1 120 (lit "sw1"), .timer zKernel {} 20,
      zHello 21 2 120 (lit "sw2"), zHello 22 2 0 (lit "sw2")] ++ [.timer zKernel {} 30]) s1 ∧
    Lives zConf zNames (zStart (lit "uplink")) ([.timer zKernel {} 10, zHello 11 1 120 (lit "sw1"), .timer zKernel {} 20,
      zHello 21 2 120 (lit "sw2"), zHello 22 2 0 (lit "sw2")] ++ [.timer zKernel {} 30] ++ [zHello 31 1 120 (lit "sw1")]) s ∧
    Ordinary s1 4 ∧ Ordinary s 4 ∧ s1.alias (lit "eth0") = some (lit "connected to 2 peers") ∧ told zConf s1 4 = lit "connected to sw1 (b)" ∧
    told zConf s 4 = lit "connected to sw1 (b)" ∧ s1.daemon.child ≠ s.daemon.child ∧ s.alias (lit "eth0") = some (lit "connected to sw1 (b)") := by
  obtain ⟨s1, s, h1, h2, hs, hf⟩ := zBoth_ok (a := lit "uplink") (pre := [.timer zKernel {} 10, zHello 11 1 120 (lit "sw1"), .timer zKernel {} 20,
      zHello 21 2 120 (lit "sw2"), zHello 22 2 0 (lit "sw2")] ++ [.timer zKernel {} 30]) (es := [zHello 31 1 120 (lit "sw1")])
    (f := fun s1 s => decide (Ordinary s1 4 ∧ Ordinary s 4 ∧ s1.alias (lit "eth0") = some (lit "connected to 2 peers") ∧
      told zConf s1 4 = lit "connected to sw1 (b)" ∧ told zConf s 4 = lit "connected to sw1 (b)" ∧ s1.daemon.child ≠ s.daemon.child ∧
      s.alias (lit "eth0") = some (lit "connected to sw1 (b)"))) (by decide +kernel) (by
      intro e he
      simp only [List.cons_append, List.nil_append, List.mem_cons, List.not_mem_nil, or_false] at he
      rcases he with rfl | rfl | rfl | rfl | rfl | rfl | rfl <;> first | exact zTimer_ok _ | exact zHello_ok (by decide +kernel) (by decide))
  exact ⟨s1, s, h1, h2, of_decide_eq_true hf⟩

/-- The hypotheses of `C79_off`: the same without `-z`. -/
example : (∀ e ∈ [.timer zKernel {} 10, zHello 11 1 120 (lit "sw1")], SaneEvent e ∧ Captured e ∧ Clocked e) ∧
    (match describedRun { zConf with opts := 1 <<< OPT_RECV } zNames [.timer zKernel {} 10, zHello 11 1 120 (lit "sw1")] (zStart (lit "uplink")) with
      | .ok s => (s.daemon.child.queue.length, s.alias (lit "eth0")) | _ => (0, none)) = (1, some (lit "uplink")) := by
  refine ⟨?_, by decide +kernel⟩
  intro e he
  simp only [List.mem_cons, List.not_mem_nil, or_false] at he
  rcases he with rfl | rfl <;> first | exact zTimer_ok _ | exact zHello_ok (by decide +kernel) (by decide)

end Ladvd.Props
