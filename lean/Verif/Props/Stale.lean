import Verif.Props.Typed
import Verif.Lemmas.Stale
/-!
# C102: how far the damage of an expired entry reaches
-/

namespace Ladvd.Props

open Ladvd Spec

/-- The table of a process is handed to a client, and what the client then displays for an entry. -/
theorem serves {c : Conf} {d0 d : Daemon} (h0 : d0.child = {}) {es : List Event} (hc : ∀ e ∈ es, Captured e) (h : daemonRun c es d0 = .ok d) (q : Nat)
    (hq : d.child.queue.length ≤ q) :
    ∃ ch, cliWrite d.child.nextId (some (List.replicate q .ok)) (cliAccept d.child) = .ok ch ∧ delivered ch d.child.nextId = d.child.queue ∧
      ∀ x ∈ d.child.queue, Stored x := by
  obtain ⟨ops, ho, -⟩ := run_ops h
  rw [h0] at ho
  have hinv := inv_run (inv_init []) ho
  obtain ⟨ch, hw⟩ : ∃ ch, cliWrite d.child.nextId (some (List.replicate q .ok)) (cliAccept d.child) = .ok ch := by
    rcases write_cases d.child.nextId (some (List.replicate q .ok)) (cliAccept d.child) with h | ⟨-, -, s, hsm, hsid, id, hid, -⟩
    · exact h
    · exfalso
      rcases List.mem_append.mp hsm with hsm | hsm
      · have := hinv.sidLt s hsm; omega
      · rw [List.mem_singleton.mp hsm] at hid; cases hid
  exact ⟨ch, hw, C33_whole c.opts [] ops d.child ch ho q hq hw, (stored_run h0 hc h).1⟩

/-- Whatever is typed asks for something. -/
theorem asks_something {opts : List Opt} {args : List Bytes} {ix : Bytes → Option Nat} (hargs : ∀ a ∈ args, (ix a).isSome) :
    ∃ i p, ClientAsks opts ix args i p := by
  obtain ⟨i, hi⟩ : ∃ i, args ≠ [] → ∃ a ∈ args, ix a = some i := by
    cases args with
    | nil => exact ⟨0, fun h => absurd rfl h⟩
    | cons a r =>
      obtain ⟨i, hi⟩ := Option.isSome_iff_exists.mp (hargs a List.mem_cons_self)
      exact ⟨i, fun _ => ⟨a, List.mem_cons_self, hi⟩⟩
  by_cases hg : given opts ['L', 'C', 'E', 'F', 'N']
  · obtain ⟨o, ho, hl⟩ := hg
    have hl' := hl
    simp only [List.mem_cons, List.not_mem_nil, or_false] at hl'
    rcases hl' with h | h | h | h | h
    · exact ⟨i, .lldp, .inr ⟨'L', rfl, o, ho, by simp [h]⟩, hi⟩
    · exact ⟨i, .cdp, .inr ⟨'C', rfl, o, ho, by simp [h]⟩, hi⟩
    · exact ⟨i, .edp, .inr ⟨'E', rfl, o, ho, by simp [h]⟩, hi⟩
    · exact ⟨i, .fdp, .inr ⟨'F', rfl, o, ho, by simp [h]⟩, hi⟩
    · exact ⟨i, .ndp, .inr ⟨'N', rfl, o, ho, by simp [h]⟩, hi⟩
  · exact ⟨i, .lldp, .inl hg, hi⟩

theorem wanted_asked {opts : List Opt} {args : List Bytes} {ix : Bytes → Option Nat} {l : Libc} {words : List Bytes}
    (hwr : Written clientLetters l.permute words opts args) (hmode : ¬ given opts ['b', 'd', 'f', 'p', 'o', 'h']) (hargs : ∀ a ∈ args, (ix a).isSome) :
    ∃ cc, cliOptions (opts.map (·.ch)) (args.map ix) = some cc ∧ cc.mode = .table ∧ cc.once = false ∧
      ∀ x, Stored x → (asked cc x = true ↔ EntryAsked opts ix args x) := by
  obtain ⟨i, p, hask⟩ := asks_something (opts := opts) hargs
  obtain ⟨cc, hcc, hcm, hco, -, -, hall⟩ := typed_client hwr hmode hask hargs
  refine ⟨cc, hcc, hcm, hco, fun x hx => ⟨fun ha => ?_, fun ⟨p, hp, ha⟩ => ?_⟩⟩
  · obtain ⟨p, m, n, hp, -⟩ := hx.dec.dec
    exact ⟨p, Proto.ofNum_num hp, hall x p (Proto.ofNum_num hp) ha⟩
  · obtain ⟨cc', hcc', -, -, hcp, hci, -⟩ := typed_client hwr hmode ha hargs
    rw [hcc] at hcc'
    obtain rfl := Option.some.inj hcc'
    unfold asked
    rw [Bool.and_eq_true, hp]
    refine ⟨?_, hcp⟩
    cases hcx : cc.indexes with
    | none => rfl
    | some l => exact List.contains_iff_mem.mpr (hci l hcx)

/-- A process has run for a while, and a user types `ladvdc`, with words that leave the output a table.  Then the client reads the whole table and ends with
status 0, whatever in the table has expired.  Each entry has at most one line, in the order of the table; those not asked for and those that have expired have
none.  A line has the interface, lifetime, remaining lifetime and frame of its entry.  It is exactly as the entry was stored, and not left out, unless the entry
asked for directly before it has expired. -/
theorem C102_spoiled {c : Conf} {d0 d : Daemon} (h0 : d0.child = {}) {es : List Event} (hc : ∀ e ∈ es, Captured e) (h : daemonRun c es d0 = .ok d) (q : Nat)
    (hq : d.child.queue.length ≤ q) :
    ∃ ch, cliWrite d.child.nextId (some (List.replicate q .ok)) (cliAccept d.child) = .ok ch ∧
      ∀ (l : Libc) (w : CliWorld) (ix : Bytes → Option Nat) (words : List Bytes) (opts : List Opt) (args : List Bytes) (now : Int),
        Written clientLetters l.permute words opts args → ¬ given opts ['b', 'd', 'f', 'p', 'o', 'h'] → (∀ a ∈ args, (ix a).isSome) →
        w.first = 0 → w.connect = 0 → w.time = .ok now → w.input.map (·.2) = (delivered ch d.child.nextId).map CliIn.ofEntry →
      (clientMain l w ix words).how = .ok 0 ∧ (clientMain l w ix words).err = [] ∧
      ∃ shown : List (Option Shown), shown.length = d.child.queue.length ∧
        (clientMain l w ix words).out = cliHeader (cliWidths w.cols) ++ (shown.filterMap id).flatMap (tableLine (cliWidths w.cols)) ∧
        ∀ pre x post, d.child.queue = pre ++ x :: post → ∃ s, shown[pre.length]? = some s ∧
          (s ≠ none → EntryAsked opts ix args x ∧ now - x.received ≤ x.ttl) ∧
          (∀ y, s = some y → y.index = x.index ∧ y.name = x.name ∧ y.ttl = x.ttl ∧ (x.received ≤ now → y.hold = (x.ttl - (now - x.received)).toNat) ∧
            y.frame = x.msg.take x.len) ∧
          (EntryAsked opts ix args x → now - x.received ≤ x.ttl → x.received ≤ now →
            (∀ y, DirectlyBefore (EntryAsked opts ix args) y pre → now - y.received ≤ y.ttl) → s = some (display now x)) := by
  obtain ⟨ch, hch, hdel, hst⟩ := serves h0 hc h q hq
  refine ⟨ch, hch, ?_⟩
  intro l w ix words opts args now hwr hmode hargs hf hcn htime hin
  obtain ⟨cc, hcc, hcm, hco, hiff⟩ := wanted_asked hwr hmode hargs
  obtain ⟨shown, hloop, hlen, hall⟩ := clientLoop_any (c := cc) (now := now) hco (by rw [hcm]; decide) d.child.queue {} hst
  rw [table_out l w ix words opts args hwr hf hcn now htime cc hcc hcm _ (by rw [hin, hdel]; exact hloop)]
  refine ⟨rfl, rfl, shown, hlen, ?_, ?_⟩
  · simp only [List.filterMap_map]
    rfl
  · intro pre x post hsplit
    have hmem : ∀ z ∈ pre, Stored z := fun z hz => hst z (by rw [hsplit]; exact List.mem_append_left _ hz)
    have hx := hst x (by rw [hsplit]; exact List.mem_append_right _ List.mem_cons_self)
    obtain ⟨s, hs, hout, hskip, hshow⟩ := hall pre x post hsplit
    refine ⟨s, hs, fun hne => ⟨?_, hout.fresh hne⟩, hout.same, fun ha hfr hr hlast => hshow ((hiff x hx).mpr ha) hfr hr (.inl rfl) ?_⟩
    · rw [← hiff x hx]
      cases ha : asked cc x with
      | true => rfl
      | false => exact absurd (hskip ha) hne
    · intro pre1 y mid hp hy hmid
      refine hlast y ⟨pre1, mid, hp, (hiff y (hmem y (by rw [hp]; simp))).mp hy, fun z hz hw => ?_⟩
      have := (hiff z (hmem z (by rw [hp]; exact List.mem_append_right _ (List.mem_cons_of_mem _ hz)))).mpr hw
      rw [hmid z hz] at this
      cases this

end Ladvd.Props
