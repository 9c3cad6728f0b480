import Verif.Lemmas.Log
import Verif.Lemmas.Fetched
import Verif.Props.Queue
import Verif.Props.PeerText
/-!
# C74: what the log says about neighbours
-/

namespace Ladvd.Props
open Spec

/-! ## Appearing and disappearing -/

/-- **C74**: whenever a neighbour that announces a name is in the table and was not before, its appearance has been logged, with its name, its
protocol and the interface (or the aggregate that the interface belongs to). -/
theorem C74_appears (o : Opts) (st st' : Child) (op : ChildOp) (hs : childStep o st op = .ok st') (x : Entry) (hx : x ∈ st'.queue)
    (hnew : ∀ y ∈ st.queue, neighbour y ≠ neighbour x) (h : Bytes) (hh : x.peer.hostname = some h) :
    ∃ subif, netifByIndex st.netifs x.index = some subif ∧ .newPeer h x.proto (parentOf st.netifs subif).name ∈ childLog o st op := by
  cases op with
  | recv now r =>
    rcases queueLog_cases hs with ⟨rfl, -, -⟩ | ⟨t, subif, m, rfl, h2, h3, h4⟩
    · exact absurd rfl (hnew x hx)
    · have hput : x ∈ queuePut st.queue (entryOf st t r subif m) := by
        rw [(queueStore_frame h4).1] at hx
        split at hx
        · exact (List.mem_filter.mp hx).1
        · exact hx
      have hxe : x = entryOf st t r subif m ∧ ∀ y ∈ st.queue, neighbour y ≠ neighbour (entryOf st t r subif m) := by
        rcases queuePut_cases st.queue (entryOf st t r subif m) with ⟨l1, q, l2, k1, k2, -, k4⟩ | ⟨k0, l1, l2, k1, k2, -, -⟩
        · rw [k4] at hput
          exfalso
          rcases List.mem_append.mp hput with hm | hm
          · exact hnew x (by rw [k1]; simp [hm]) rfl
          · rcases List.mem_cons.mp hm with rfl | hm
            · exact hnew q (by rw [k1]; simp) k2
            · exact hnew x (by rw [k1]; simp [hm]) rfl
        · rw [k2] at hput
          refine ⟨?_, k0⟩
          rcases List.mem_append.mp hput with hm | hm
          · exact absurd rfl (hnew x (by rw [k1]; simp [hm]))
          · rcases List.mem_cons.mp hm with rfl | hm
            · rfl
            · exact absurd rfl (hnew x (by rw [k1]; simp [hm]))
      obtain ⟨rfl, hno⟩ := hxe
      refine ⟨subif, h2.known, ?_⟩
      show _ ∈ queueLog o (some t) r st
      rw [h3]
      unfold storeLog
      refine List.mem_append_left _ ?_
      unfold newLog
      have hsc := queueScan_spec (entryOf st t r subif m) st.queue 0 none
      cases hq : queueScan (entryOf st t r subif m).index (entryOf st t r subif m).proto ((entryOf st t r subif m).msg.take 12) st.queue 0 none with
      | mk msg pm =>
      rw [hq] at hsc
      cases msg with
      | some i =>
        obtain ⟨l1, q, l2, k1, -, k3, -⟩ := hsc
        exact absurd k3 (hno q (by rw [k1]; simp))
      | none =>
        rw [hh]
        exact List.mem_singleton.mpr rfl
  | expire now =>
    rw [(childExpire_frame hs).1] at hx
    exact absurd rfl (hnew x (List.mem_filter.mp hx).1)
  | fetch l => cases hs; exact absurd rfl (hnew x hx)
  | accept => cases hs; exact absurd rfl (hnew x hx)
  | write sid ws =>
    have : face x ∈ st.queue.map face := by rw [← cliWrite_face hs]; exact List.mem_map_of_mem hx
    obtain ⟨y, hy, hyx⟩ := List.mem_map.mp this
    exact absurd (congrArg Prod.snd hyx) (hnew y hy)

/-- **C74**: an appearance is logged only for a neighbour that was not in the table before, when a valid message of it with this name and
protocol arrives on this interface. -/
theorem C74_new_only (o : Opts) (st st' : Child) (op : ChildOp) (hs : childStep o st op = .ok st') (h i : Bytes) (p : Nat)
    (hm : .newPeer h p i ∈ childLog o st op) :
    ∃ t r subif m, op = .recv (some t) r ∧ Taken st t r subif m ∧ m.peer.hostname = some h ∧ m.proto = p ∧
      i = (parentOf st.netifs subif).name ∧ ∀ y ∈ st.queue, neighbour y ≠ (r.index, p, r.msg.take 6, (r.msg.drop 6).take 6) := by
  have hexp : ∀ now q, .newPeer h p i ∉ expireLog now q := by
    intro now q hm
    obtain ⟨e, -, he⟩ := List.mem_filterMap.mp hm
    cases hh : e.peer.hostname with
    | none => rw [hh] at he; cases he
    | some x => rw [hh] at he; cases he
  cases op with
  | recv now r =>
    have hm : LogLine.newPeer h p i ∈ queueLog o now r st := hm
    rcases queueLog_cases hs with ⟨rfl, h1, -⟩ | ⟨t, subif, m, rfl, h2, h3, h4⟩
    · rw [h1] at hm; cases hm
    · rw [h3] at hm
      unfold storeLog at hm
      rcases List.mem_append.mp hm with hm | hm
      · unfold newLog at hm
        have hsc := queueScan_spec (entryOf st t r subif m) st.queue 0 none
        cases hq : queueScan (entryOf st t r subif m).index (entryOf st t r subif m).proto ((entryOf st t r subif m).msg.take 12) st.queue 0 none with
        | mk msg pm =>
        rw [hq] at hsc hm
        cases msg with
        | some i => cases hm
        | none =>
          cases hh : m.peer.hostname with
          | none => rw [show (entryOf st t r subif m).peer.hostname = none from hh] at hm; cases hm
          | some x =>
            rw [show (entryOf st t r subif m).peer.hostname = some x from hh] at hm
            have hm := List.mem_singleton.mp (show _ ∈ [LogLine.newPeer x m.proto (parentOf st.netifs subif).name] from hm)
            injection hm with e1 e2 e3
            subst e1 e2 e3
            exact ⟨t, r, subif, m, rfl, h2, hh, rfl, rfl, hsc.1⟩
      · exfalso
        split at hm
        · exact hexp _ _ hm
        · unfold enableLog at hm
          split at hm
          · cases hm
          · split at hm
            · cases hm
            · have hm := List.mem_singleton.mp hm; cases hm
  | expire now => exact absurd hm (hexp _ _)
  | fetch l => cases hm
  | accept => cases hm
  | write sid ws => cases hm

/-- **C74**: whenever a neighbour with a name has disappeared from the table, this has been logged with its name and protocol, unless it
disappeared because of a message of its own (see `C74_farewell`). -/
theorem C74_departs_partial (o : Opts) (st st' : Child) (op : ChildOp) (hs : childStep o st op = .ok st') (x : Entry) (hx : x ∈ st.queue)
    (hgone : ∀ y ∈ st'.queue, neighbour y ≠ neighbour x)
    (hown : ∀ now r p, op = .recv now r → neighbour x ≠ (r.index, p, r.msg.take 6, (r.msg.drop 6).take 6))
    (h : Bytes) (hh : x.peer.hostname = some h) : .removing h x.proto ∈ childLog o st op := by
  have hexp : ∀ now q, x ∈ q → keeps now x = false → .removing h x.proto ∈ expireLog now q := by
    intro now q hq hk
    refine List.mem_filterMap.mpr ⟨x, List.mem_filter.mpr ⟨hq, by rw [hk]; rfl⟩, ?_⟩
    rw [hh]; rfl
  cases op with
  | recv now r =>
    rcases queueLog_cases hs with ⟨rfl, -, -⟩ | ⟨t, subif, m, rfl, h2, h3, h4⟩
    · exact absurd rfl (hgone x hx)
    · have hne : neighbour x ≠ neighbour (entryOf st t r subif m) := hown _ r m.proto rfl
      have hput : x ∈ queuePut st.queue (entryOf st t r subif m) := by
        have : x ∈ (queuePut st.queue (entryOf st t r subif m)).filter (fun y => neighbour y != neighbour (entryOf st t r subif m)) := by
          rw [others_put]
          exact List.mem_filter.mpr ⟨hx, by simpa using hne⟩
        exact (List.mem_filter.mp this).1
      have hq := (queueStore_frame h4).1
      show _ ∈ queueLog o (some t) r st
      rw [h3]
      unfold storeLog
      refine List.mem_append_right _ ?_
      by_cases httl : (entryOf st t r subif m).ttl = 0
      · rw [if_pos httl]
        rw [if_pos httl] at hq
        refine hexp _ _ hput ?_
        cases hk : keeps t x with
        | false => rfl
        | true => exact absurd rfl (hgone x (by rw [hq]; exact List.mem_filter.mpr ⟨hput, hk⟩))
      · rw [if_neg httl] at hq
        exact absurd rfl (hgone x (by rw [hq]; exact hput))
  | expire now =>
    refine hexp _ _ hx ?_
    cases hk : keeps now x with
    | false => rfl
    | true => exact absurd rfl (hgone x (by rw [(childExpire_frame hs).1]; exact List.mem_filter.mpr ⟨hx, hk⟩))
  | fetch l => cases hs; exact absurd rfl (hgone x hx)
  | accept => cases hs; exact absurd rfl (hgone x hx)
  | write sid ws =>
    have : face x ∈ st'.queue.map face := by rw [cliWrite_face hs]; exact List.mem_map_of_mem hx
    obtain ⟨y, hy, hyx⟩ := List.mem_map.mp this
    exact absurd (congrArg Prod.snd hyx) (hgone y hy)

/-- **C74**: a disappearance is logged only for a neighbour with this name and protocol that was in the table, or has just announced its end,
and is not in the table any more. -/
theorem C74_removed_only (o : Opts) (l : List Netif) (ops : List ChildOp) (st : Child) (hr : childRun o { netifs := l } ops = .ok st)
    (st' : Child) (op : ChildOp) (hs : childStep o st op = .ok st') (h : Bytes) (p : Nat) (hm : .removing h p ∈ childLog o st op) :
    ∃ x : Entry, x.peer.hostname = some h ∧ x.proto = p ∧ (∀ y ∈ st'.queue, neighbour y ≠ neighbour x) ∧
      (x ∈ st.queue ∨ ∃ t r subif m, op = .recv (some t) r ∧ Taken st t r subif m ∧ m.ttl = 0 ∧ m.peer.hostname = some h ∧ m.proto = p) := by
  have hkeys := C15_unique o l ops st hr
  have hexp : ∀ now (q : List Entry), (q.map neighbour).Nodup → .removing h p ∈ expireLog now q →
      ∃ x ∈ q, x.peer.hostname = some h ∧ x.proto = p ∧ ∀ y ∈ q.filter (keeps now), neighbour y ≠ neighbour x := by
    intro now q hq hm
    obtain ⟨e, he, hme⟩ := List.mem_filterMap.mp hm
    obtain ⟨he, hk⟩ := List.mem_filter.mp he
    cases hh : e.peer.hostname with
    | none => rw [hh] at hme; cases hme
    | some x =>
      rw [hh] at hme
      cases hme
      refine ⟨e, he, hh, rfl, fun y hy hye => ?_⟩
      obtain ⟨hy, hky⟩ := List.mem_filter.mp hy
      have : y = e := inj_of_nodup_map hq hy he hye
      rw [this] at hky
      rw [hky] at hk
      cases hk
  cases op with
  | recv now r =>
    have hm : LogLine.removing h p ∈ queueLog o now r st := hm
    rcases queueLog_cases hs with ⟨rfl, h1, -⟩ | ⟨t, subif, m, rfl, h2, h3, h4⟩
    · rw [h1] at hm; cases hm
    · rw [h3] at hm
      unfold storeLog at hm
      rcases List.mem_append.mp hm with hm | hm
      · exfalso
        unfold newLog at hm
        split at hm
        · cases hm
        · cases hh : (entryOf st t r subif m).peer.hostname with
          | none => rw [hh] at hm; cases hm
          | some x => rw [hh] at hm; have hm := List.mem_singleton.mp hm; cases hm
      · split at hm
        · next httl =>
          have hq := (queueStore_frame h4).1
          rw [if_pos httl] at hq
          obtain ⟨x, k1, k2, k3, k4⟩ := hexp _ _ (queuePut_nodup _ _ hkeys) hm
          refine ⟨x, k2, k3, by rw [hq]; exact k4, ?_⟩
          rcases queuePut_cases st.queue (entryOf st t r subif m) with ⟨l1, q, l2, j1, j2, -, j4⟩ | ⟨-, l1, l2, j1, j2, -, -⟩
          · rw [j4] at k1
            rcases List.mem_append.mp k1 with k1 | k1
            · exact .inl (by rw [j1]; simp [k1])
            · rcases List.mem_cons.mp k1 with rfl | k1
              · exact .inr ⟨t, r, subif, m, rfl, h2, httl, k2, k3⟩
              · exact .inl (by rw [j1]; simp [k1])
          · rw [j2] at k1
            rcases List.mem_append.mp k1 with k1 | k1
            · exact .inl (by rw [j1]; simp [k1])
            · rcases List.mem_cons.mp k1 with rfl | k1
              · exact .inr ⟨t, r, subif, m, rfl, h2, httl, k2, k3⟩
              · exact .inl (by rw [j1]; simp [k1])
        · exfalso
          unfold enableLog at hm
          split at hm
          · cases hm
          · split at hm
            · cases hm
            · have hm := List.mem_singleton.mp hm; cases hm
  | expire now =>
    obtain ⟨x, k1, k2, k3, k4⟩ := hexp _ _ hkeys hm
    exact ⟨x, k2, k3, by rw [(childExpire_frame hs).1]; exact k4, .inl k1⟩
  | fetch l => cases hm
  | accept => cases hm
  | write sid ws => cases hm

/-- **C74**: from the log alone one can tell how many neighbours of a name and protocol there are: the number of reports of new ones less
those of removed ones.  Missing for the full statement: neighbours whose messages do not all carry the same name, among them all that
announce their end over LLDP (see `C74_farewell` and `C74_renamed`). -/
theorem C74_balance_partial (o : Opts) (l : List Netif) (ops : List ChildOp) (st : Child) (hr : childRun o { netifs := l } ops = .ok st)
    (name : Nat × Nat × Bytes × Bytes → Option Bytes) (hn : OneName name ops) (h : Bytes) (p : Nat) :
    reported h p (childRunLog o { netifs := l } ops) = dismissed h p (childRunLog o { netifs := l } ops) + present h p st.queue :=
  childRunLog_counts h p o ops { netifs := l } st (fun _ hm => nomatch hm) hn hr

/-! ## Protocols -/

/-- **C74**: the automatic enabling of a protocol is logged exactly when a received message changes the protocols of an interface. -/
theorem C74_enabling (o : Opts) (st st' : Child) (t : Int) (r : RawMsg) (subif : Netif) (m : Msg) (hs : childQueue o (some t) r st = .ok st')
    (ht : Taken st t r subif m) (httl : m.ttl ≠ 0) (hi : (st.netifs.map (·.index)).Nodup) (hb : r.msg.length = 1518) (hl : 26 ≤ r.len) (p : Nat)
    (i : Bytes) : .enabling p i ∈ childLog o st (.recv (some t) r) ↔
      p = m.proto ∧ i = (parentOf st.netifs subif).name ∧ (parentOf st.netifs subif).protos.testBit p = false ∧
        ∃ n ∈ st'.netifs, n.index = (parentOf st.netifs subif).index ∧ n.protos.testBit p = true := by
  have hp8 : m.proto < 8 := by
    obtain ⟨p, _, _, k, _⟩ := (taken_decodes hb hl ht).dec
    have k := Proto.ofNum_num k
    have : p.num < 8 := by cases p <;> decide
    exact Nat.lt_of_le_of_lt (Nat.le_of_eq k) this
  rcases queueLog_cases hs with ⟨-, -, h1⟩ | ⟨t', subif', m', ht', h2, h3, h4⟩
  · exact absurd ht (h1 t subif m rfl)
  cases ht'
  obtain ⟨es, em⟩ : subif' = subif ∧ m' = m := by
    obtain ⟨p1, n1, a1, a2, -⟩ := ht.proto
    obtain ⟨p2, n2, b1, b2, -⟩ := h2.proto
    have hk := ht.known
    rw [h2.known] at hk
    rw [a1] at b1
    cases b1
    rw [a2] at b2
    cases b2
    cases hk
    exact ⟨rfl, rfl⟩
  rw [es, em] at h2 h3 h4
  have httl' : ¬ (entryOf st t r subif m).ttl = 0 := httl
  have hmem := parentOf_mem (List.mem_of_find?_eq_some ht.known)
  have hnew : .enabling p i ∉ newLog (parentOf st.netifs subif) (entryOf st t r subif m) st.queue := by
    unfold newLog
    split
    · exact List.not_mem_nil
    · cases (entryOf st t r subif m).peer.hostname with
      | none => exact List.not_mem_nil
      | some x => intro hx; have hx := List.mem_singleton.mp hx; cases hx
  have hlog : .enabling p i ∈ childLog o st (.recv (some t) r) ↔ .enabling p i ∈ enableLog o (parentOf st.netifs subif) subif (entryOf st t r subif m) := by
    show _ ∈ queueLog o (some t) r st ↔ _
    rw [h3]
    unfold storeLog
    rw [List.mem_append, if_neg httl']
    exact ⟨fun h => h.resolve_left hnew, .inr⟩
  rw [hlog]
  have hsame : st'.netifs = st.netifs → (parentOf st.netifs subif).protos.testBit p = false →
      ¬ ∃ n ∈ st'.netifs, n.index = (parentOf st.netifs subif).index ∧ n.protos.testBit p = true := by
    rintro hn hf ⟨n, k1, k2, k3⟩
    rw [hn] at k1
    rw [inj_of_nodup_map hi k1 hmem k2, hf] at k3
    cases k3
  unfold queueStore at h4
  unfold enableLog
  dsimp only at h4
  rw [if_neg httl'] at h4
  have hnet : ∀ b : Bool, (if b = true then
      ({ netifs := st.netifs, queue := queuePut st.queue (entryOf st t r subif m), sessions := st.sessions, nextId := st.nextId + 1,
         out := st.out ++ (netifDescr o subif (queuePut st.queue (entryOf st t r subif m))).toList, sent := st.sent } : Child)
      else { netifs := st.netifs, queue := queuePut st.queue (entryOf st t r subif m), sessions := st.sessions, nextId := st.nextId + 1,
             out := st.out, sent := st.sent }).netifs = st.netifs := by
    intro b; split <;> rfl
  split at h4
  · next hc =>
    rw [if_pos hc]
    cases h4
    refine ⟨fun h => (nomatch h), ?_⟩
    rintro ⟨-, -, k3, k4⟩
    exact absurd k4 (hsame (hnet _) k3)
  next hc =>
  rw [if_neg hc]
  split at h4
  · next hc2 =>
    rw [if_pos hc2]
    cases h4
    refine ⟨fun h => (nomatch h), ?_⟩
    rintro ⟨-, -, k3, k4⟩
    exact absurd k4 (hsame (hnet _) k3)
  next hc2 =>
  rw [if_neg hc2]
  cases h4
  rw [List.mem_singleton]
  have hbit : (parentOf st.netifs subif).protos.testBit m.proto = false := by
    cases hb : (parentOf st.netifs subif).protos.testBit m.proto with
    | false => rfl
    | true =>
      exfalso
      refine hc ?_
      rw [show (parentOf st.netifs subif).protos.testBit (entryOf st t r subif m).proto = true from hb]
      simp
  constructor
  · intro h
    injection h with e1 e2
    subst e1 e2
    refine ⟨rfl, rfl, hbit, { parentOf st.netifs subif with
      protos := ((parentOf st.netifs subif).protos ||| (1 <<< m.proto)) % 256 }, ?_, rfl, ?_⟩
    · dsimp only
      rw [hnet]
      unfold setNetif
      refine List.mem_map.mpr ⟨_, hmem, ?_⟩
      rw [if_pos rfl]
      rfl
    · show (((parentOf st.netifs subif).protos ||| (1 <<< m.proto)) % 256).testBit m.proto = true
      rw [show (256 : Nat) = 2 ^ 8 from rfl, Nat.testBit_mod_two_pow, testBit_or_shift]
      simp [hp8]
  · rintro ⟨k1, k2, -, -⟩
    subst k1 k2
    rfl

/-! ## Writing -/

/-- **C74**: with up to 127 options `-v` every message is written, to the system log of a daemon, to the standard error otherwise. -/
theorem C74_written (o : Opts) (vs : Nat) (hv : vs < 128) (l : List LogLine) :
    writeLog o (logLevel vs) l = l.map (fun m => if o.has OPT_DAEMON then .syslog 6 m.text
      else .stderr ((if vs = 3 then m.func ++ lit ": " else []) ++ m.text ++ [0x0a])) := by
  have hl : logLevel vs = vs := by
    unfold logLevel
    rw [BitVec.toInt_eq_toNat_of_lt (by rw [BitVec.toNat_ofNat]; omega), BitVec.toNat_ofNat]
    omega
  unfold writeLog
  rw [hl]
  have : ∀ m ∈ l, myLog o vs 0 m.func m.text = [if o.has OPT_DAEMON then .syslog 6 m.text
      else .stderr ((if vs = 3 then m.func ++ lit ": " else []) ++ m.text ++ [0x0a])] := by
    intro m _
    unfold myLog
    rw [if_neg (by omega)]
    split
    · rfl
    · have : ((vs : Int) = 3) ↔ vs = 3 := by omega
      simp only [this]
  induction l with
  | nil => rfl
  | cons m l ih =>
    rw [List.flatMap_cons, this m List.mem_cons_self, ih (fun x hx => this x (List.mem_cons_of_mem _ hx))]
    rfl

/-- **C74** is false for 128 and more of them: the level becomes negative and nothing is written at all. -/
theorem C74_silent (o : Opts) (l : List LogLine) : writeLog o (logLevel 128) l = [] := by
  unfold writeLog
  rw [show logLevel 128 = -128 by decide]
  induction l with
  | nil => rfl
  | cons m l ih => rw [List.flatMap_cons, ih]; rfl

theorem splitLines_line (t : Bytes) (h : (0x0a : UInt8) ∉ t) (rest : Bytes) : splitLines (t ++ 0x0a :: rest) = t :: splitLines rest := by
  induction t with
  | nil => rfl
  | cons b t ih =>
    rw [List.cons_append, splitLines, if_neg (fun he => h (by rw [he]; simp)), ih (fun hm => h (List.mem_cons_of_mem _ hm))]

/-- No line feed. -/
def NoLf (t : Bytes) : Prop := (0x0a : UInt8) ∉ t

theorem protoName_noLf (p : Nat) : NoLf (protoName p) := by
  unfold NoLf protoName
  split <;> decide

theorem text_noLf {m : LogLine} (h : m.Mentions NoLf NoLf) : NoLf m.text := by
  have hp := protoName_noLf
  unfold NoLf at h hp ⊢
  cases m with
  | newPeer h' p i =>
    obtain ⟨h1, h2⟩ := h
    simp only [LogLine.text, List.mem_append, not_or]
    exact ⟨⟨⟨⟨⟨by decide, h1⟩, by decide⟩, hp p⟩, by decide⟩, h2⟩
  | removing h' p =>
    simp only [LogLine.text, List.mem_append, not_or]
    exact ⟨⟨⟨⟨by decide, h⟩, by decide⟩, hp p⟩, by decide⟩
  | enabling p i =>
    simp only [LogLine.text, List.mem_append, not_or]
    exact ⟨⟨⟨by decide, hp p⟩, by decide⟩, h⟩

/-- **C74**: on the standard error each message is one line of its own.  Missing for the full statement: neighbours whose names contain line
feeds (see `C74_forged`). -/
theorem C74_lines_partial (o : Opts) (hd : o.has OPT_DAEMON = false) (vs : Nat) (hv : vs < 128) (l : List Netif) (ops : List ChildOp) (st : Child)
    (hr : childRun o { netifs := l } ops = .ok st)
    (hh : ∀ t r p m n, ChildOp.recv (some t) r ∈ ops → Proto.ofNum r.proto = some p →
      p.decode false (r.msg ++ [1, 0]) r.len.toNat { proto := r.proto } = .ok (m, n) → ∀ h ∈ m.peer.hostname, NoLf h)
    (hi : ∀ n ∈ l, NoLf n.name) (hf : ∀ l, ChildOp.fetch l ∈ ops → ∀ n ∈ l, NoLf n.name) :
    splitLines (onStderr (writeLog o (logLevel vs) (childRunLog o { netifs := l } ops))) =
      (childRunLog o { netifs := l } ops).map (fun m => (if vs = 3 then m.func ++ lit ": " else []) ++ m.text) := by
  have hm := childRunLog_mentions (H := NoLf) (I := NoLf) hr
    (fun st t r subif m hm ht h hh' => by
      obtain ⟨p, n, k1, k2, -⟩ := ht.proto
      exact hh t r p m n hm k1 k2 h hh') hf (fun _ h => nomatch h) (fun _ h => nomatch h) hi
  rw [C74_written o vs hv]
  generalize childRunLog o { netifs := l } ops = log at hm
  induction log with
  | nil => rfl
  | cons m log ih =>
    rw [List.map_cons, List.map_cons, hd]
    unfold onStderr
    rw [List.flatMap_cons]
    rw [if_neg (by decide)]
    dsimp only
    rw [List.append_assoc, List.singleton_append, splitLines_line]
    · rw [← ih (fun x hx => hm x (List.mem_cons_of_mem _ hx)), hd]
      rfl
    · have h1 := text_noLf (hm m List.mem_cons_self)
      have h2 : (0x0a : UInt8) ∉ (if vs = 3 then m.func ++ lit ": " else []) := by
        split
        · intro hx
          rcases List.mem_append.mp hx with hx | hx
          · cases m <;> (simp only [LogLine.func] at hx; revert hx; decide)
          · revert hx; decide
        · exact List.not_mem_nil
      intro hx
      rcases List.mem_append.mp hx with hx | hx
      · exact h2 hx
      · exact h1 hx

/-- **C74**: whatever neighbours send, the log contains only printable characters and the control characters that `SafeText` allows, if the names
of the interfaces do. -/
theorem C74_safe (o : Opts) (l : List Netif) (ops : List ChildOp) (st : Child) (hr : childRun o { netifs := l } ops = .ok st)
    (hb : ∀ t r, ChildOp.recv (some t) r ∈ ops → r.msg.length = 1518 ∧ 26 ≤ r.len)
    (hi : ∀ n ∈ l, SafeText n.name) (hf : ∀ l, ChildOp.fetch l ∈ ops → ∀ n ∈ l, SafeText n.name) :
    ∀ m ∈ childRunLog o { netifs := l } ops, SafeText m.text := by
  have hm := childRunLog_mentions (H := SafeText) (I := SafeText) hr
    (fun st t r subif m hm ht h hh' => by
      obtain ⟨p, n, k1, k2, -⟩ := ht.proto
      obtain ⟨b1, b2⟩ := hb t r hm
      have hlen : r.len.toNat ≤ 1518 := by have := ht.len; simp only [ETHER_MAX_LEN] at this; omega
      have hsplit : r.msg ++ [1, 0] = r.msg.take r.len.toNat ++ (r.msg.drop r.len.toNat ++ [1, 0]) := by
        rw [← List.append_assoc, List.take_append_drop]
      have hl : (r.msg.take r.len.toNat).length = r.len.toNat := by rw [List.length_take]; omega
      rw [hsplit] at k2
      have := C12_peer_safe p false (r.msg.take r.len.toNat) (r.msg.drop r.len.toNat ++ [1, 0]) { proto := r.proto } m n
        (by omega) (by omega) (by simp) (by simp [PeerSafe]) (by rw [hl]; exact k2)
      exact this.1 h hh') hf (fun _ h => nomatch h) (fun _ h => nomatch h) hi
  intro m hmem
  have hpn : ∀ p, SafeText (protoName p) := by
    intro p
    unfold SafeText protoName
    split <;> decide
  have happ : ∀ {a b : Bytes}, SafeText a → SafeText b → SafeText (a ++ b) := by
    intro a b ha hb c hc
    rcases List.mem_append.mp hc with hc | hc
    · exact ha c hc
    · exact hb c hc
  have hlit : ∀ s ∈ [lit "new peer ", lit " (", lit ") on interface ", lit "removing peer ", lit ")", lit "enabling ", lit " on interface "], SafeText s := by
    unfold SafeText; decide
  have h := hm m hmem
  cases m with
  | newPeer h' p i =>
    exact happ (happ (happ (happ (happ (hlit _ (by simp)) h.1) (hlit _ (by simp))) (hpn p)) (hlit _ (by simp))) h.2
  | removing h' p => exact happ (happ (happ (happ (hlit _ (by simp)) h) (hlit _ (by simp))) (hpn p)) (hlit _ (by simp))
  | enabling p i => exact happ (happ (happ (hlit _ (by simp)) (hpn p)) (hlit _ (by simp))) h

/-! ## Samples -/

/-- A message with a 62 byte LLDP frame of the station `02:00:00:00:00:b`, with a lifetime and a system name. -/
def logLldp (b ttl : UInt8) (name : Bytes) : RawMsg :=
  { size := 102, index := 3, proto := 0, len := 62
    msg := ([0x01, 0x80, 0xc2, 0x00, 0x00, 0x0e, 2, 0, 0, 0, 0, b, 0x88, 0xcc] ++
      lldpEnc ([(1, [7, 0x61]), (2, [5, 0x62]), (3, [0, ttl])] ++ (if name = [] then [] else [(5, name)]) ++ [(0, [])]) ++
      List.replicate 1518 0).take 1518 }

/-- Three neighbours, of which two have the same name; one speaks a protocol more, one stops, the others expire one after the other. -/
def logOps : List ChildOp :=
  [.recv (some 100) (logLldp 1 120 (lit "sw1")), .recv (some 101) (logLldp 2 60 (lit "sw1")), .recv (some 102) (logLldp 3 120 (lit "sw3")),
   .recv (some 103) (sampleCdp 1 90), .recv (some 110) (logLldp 1 120 (lit "sw1")), .expire 170, .recv (some 180) (sampleCdp 1 0)]

/-- The names of these neighbours. -/
def logNames (k : Nat × Nat × Bytes × Bytes) : Option Bytes :=
  if k.2.2.2 = [2, 0, 0, 0, 0, 3] then some (lit "sw3") else some (lit "sw1")

/-- One interface, a physical port of a bond. -/
def logNetifs : List Netif :=
  [{ index := 3, name := lit "eth0", hwaddr := [2, 0, 0, 0, 0, 9], parent := some 4 }, { index := 4, name := lit "bond0", hwaddr := [2, 0, 0, 0, 0, 9] }]

/-- The options `-a` alone: protocols are enabled automatically. -/
def logAuto : Opts := 1 <<< OPT_AUTO

example : (match childRun logAuto { netifs := logNetifs } logOps with | .ok st => st.queue.map (fun e => (e.peer.hostname, e.proto)) | _ => []) =
      [(some (lit "sw1"), 0), (some (lit "sw3"), 0)] ∧
    childRunLog logAuto { netifs := logNetifs } logOps =
      [.newPeer (lit "sw1") 0 (lit "bond0"), .enabling 0 (lit "bond0"), .newPeer (lit "sw1") 0 (lit "bond0"), .newPeer (lit "sw3") 0 (lit "bond0"),
       .newPeer (lit "sw1") 1 (lit "bond0"), .enabling 1 (lit "bond0"), .removing (lit "sw1") 0, .removing (lit "sw1") 1] := by decide +kernel

example : (childRunLog logAuto { netifs := logNetifs } logOps).map (·.text) =
    [lit "new peer sw1 (LLDP) on interface bond0", lit "enabling LLDP on interface bond0", lit "new peer sw1 (LLDP) on interface bond0",
     lit "new peer sw3 (LLDP) on interface bond0", lit "new peer sw1 (CDP) on interface bond0", lit "enabling CDP on interface bond0",
     lit "removing peer sw1 (LLDP)", lit "removing peer sw1 (CDP)"] := by decide +kernel

/-- The hypothesis of `C74_balance_partial`. -/
example : OneName logNames logOps := by
  have key : ∀ op ∈ logOps, (match op with
      | .recv _ r => (match Proto.ofNum r.proto with
        | some p => (match p.decode false (r.msg ++ [1, 0]) r.len.toNat { proto := r.proto } with
          | .ok (m, _) => decide (m.peer.hostname = logNames (r.index, m.proto, r.msg.take 6, (r.msg.drop 6).take 6))
          | _ => true)
        | none => true)
      | _ => true) = true := by decide +kernel
  intro now r hm p m n h1 h2 _
  have := key _ hm
  simp only [h1, h2, decide_eq_true_eq] at this
  exact this

/-- The hypotheses of `C74_enabling`: the message is taken, and the indexes are different. -/
example : (∃ subif m, Taken { netifs := logNetifs } 100 (logLldp 1 120 (lit "sw1")) subif m ∧ m.ttl ≠ 0) ∧ (logNetifs.map (·.index)).Nodup ∧
    (logLldp 1 120 (lit "sw1")).msg.length = 1518 := by
  have key : (match Proto.lldp.decode false ((logLldp 1 120 (lit "sw1")).msg ++ [1, 0]) 62 { proto := 0 } with
      | .ok (m, n) => decide (n ≠ 0 ∧ m.ttl ≠ 0) | _ => false) = true := by decide +kernel
  cases hd : Proto.lldp.decode false ((logLldp 1 120 (lit "sw1")).msg ++ [1, 0]) 62 { proto := 0 } with
  | ok x =>
    obtain ⟨m, n⟩ := x
    rw [hd] at key
    have k := of_decide_eq_true key
    exact ⟨⟨_, m, ⟨by decide, ⟨.lldp, n, rfl, hd, k.1⟩, by decide, rfl, by decide +kernel⟩, k.2⟩, by decide, by decide +kernel⟩
  | _ => rw [hd] at key; cases key

/-! ## Defects -/

/-- **C74** is false for a neighbour that says goodbye: LLDP requires (IEEE 802.1AB, shutdown LLDPDU) that this message carries nothing but
identifiers and lifetime, so it has no system name, and that the neighbour has gone is not logged. -/
theorem C74_farewell : ∃ ops st, childRun 0 { netifs := logNetifs } ops = .ok st ∧ st.queue = [] ∧
    childRunLog 0 { netifs := logNetifs } ops = [.newPeer (lit "sw1") 0 (lit "bond0")] := by
  refine ⟨[.recv (some 100) (logLldp 1 120 (lit "sw1")), .recv (some 110) (logLldp 1 0 [])],
    (match childRun 0 { netifs := logNetifs } [.recv (some 100) (logLldp 1 120 (lit "sw1")), .recv (some 110) (logLldp 1 0 [])] with
      | .ok st => st | _ => {}), ?_⟩
  decide +kernel

/-- **C74** is false for a neighbour that changes its name: the change is not logged, and under the new name it is reported as removed although
it never was reported as new. -/
theorem C74_renamed : ∃ ops st, childRun 0 { netifs := logNetifs } ops = .ok st ∧ st.queue = [] ∧
    childRunLog 0 { netifs := logNetifs } ops = [.newPeer (lit "sw1") 0 (lit "bond0"), .removing (lit "sw2") 0] := by
  refine ⟨[.recv (some 100) (logLldp 1 120 (lit "sw1")), .recv (some 110) (logLldp 1 120 (lit "sw2")), .expire 400],
    (match childRun 0 { netifs := logNetifs } [.recv (some 100) (logLldp 1 120 (lit "sw1")), .recv (some 110) (logLldp 1 120 (lit "sw2")), .expire 400] with
      | .ok st => st | _ => {}), ?_⟩
  decide +kernel

/-- A name that pretends to be two lines. -/
def logForged : Bytes := lit "sw1 (LLDP) on interface bond0" ++ [0x0a] ++ lit "removing peer sw2 (LLDP)" ++ [0x0a] ++ lit "new peer sw4"

/-- **C74** is false for a neighbour with line feeds in its name: on the standard error it forges lines, here the removal of another neighbour
that is still there. -/
theorem C74_forged : ∃ ops st, childRun 0 { netifs := logNetifs } ops = .ok st ∧ present (lit "sw2") 0 st.queue = 1 ∧
    splitLines (onStderr (writeLog 0 (logLevel 0) (childRunLog 0 { netifs := logNetifs } ops))) =
      [lit "new peer sw2 (LLDP) on interface bond0", lit "new peer sw1 (LLDP) on interface bond0", lit "removing peer sw2 (LLDP)",
       lit "new peer sw4 (LLDP) on interface bond0"] := by
  refine ⟨[.recv (some 100) (logLldp 2 120 (lit "sw2")), .recv (some 110) { logLldp 1 120 logForged with size := 158, len := 118 }],
    (match childRun 0 { netifs := logNetifs } [.recv (some 100) (logLldp 2 120 (lit "sw2")),
        .recv (some 110) { logLldp 1 120 logForged with size := 158, len := 118 }] with
      | .ok st => st | _ => {}), ?_⟩
  decide +kernel

/-- Without the daemon option the messages are lines of the standard error, with it they go to the system log. -/
example : writeLog 0 (logLevel 3) [.removing (lit "sw1") 1] = [.stderr (lit "child_expire: removing peer sw1 (CDP)" ++ [0x0a])] ∧
    writeLog (1 <<< OPT_DAEMON) (logLevel 3) [.removing (lit "sw1") 1] = [.syslog 6 (lit "removing peer sw1 (CDP)")] := by decide +kernel

end Ladvd.Props
