import Verif.Spec.Network
import Verif.Lemmas.Run
import Verif.Lemmas.Cli
import Verif.Props.Queue
import Verif.Props.Filter
/-!
# Lemmas: histories of the process as histories of the table
-/

namespace Ladvd

open Spec

/-- The operation on the table is the part of the event that concerns it. -/
def OpOf (e : Event) : ChildOp → Prop
  | .recv now r => e = .recv now r
  | .expire now => ∃ k m, e = .timer k m now
  | .fetch _ => True
  | .accept => e = .accept
  | .write sid ws => e = .write sid ws

theorem step_ops {c : Conf} {d d' : Daemon} {e : Event} (h : daemonStep c d e = .ok d') :
    ∃ ops, childRun c.opts d.child ops = .ok d'.child ∧ ∀ op ∈ ops, OpOf e op := by
  have hlift : ∀ {d d' : Daemon} {r : Res Child}, d.lift r = .ok d' → r = .ok d'.child := by
    intro d d' r h
    unfold Daemon.lift at h
    cases r with
    | ok ch => injection h with h; subst h; rfl
    | fail => cases h
    | oob => cases h
    | abort => cases h
    | stuck => cases h
  have hone : ∀ op, OpOf e op → childStep c.opts d.child op = .ok d'.child →
      ∃ ops, childRun c.opts d.child ops = .ok d'.child ∧ ∀ op ∈ ops, OpOf e op := by
    intro op ho h
    exact ⟨[op], by simp only [childRun, h, Res.bind_ok], fun x hx => by rw [List.mem_singleton.mp hx]; exact ho⟩
  cases e with
  | timer k m now =>
    rw [daemonStep] at h
    cases hr : sendRound c k m none d with
    | ok d1 =>
      rw [hr] at h
      simp only [Res.bind_ok] at h
      have hc := sendRound_child hr
      have hf : childStep c.opts d.child (.fetch d1.child.netifs) = .ok d1.child := by
        rw [childStep]; exact congrArg Res.ok hc.symm
      split at h
      · have := hlift h
        refine ⟨[.fetch d1.child.netifs, .expire now], ?_, ?_⟩
        · simp only [childRun, hf, Res.bind_ok]
          simp only [childStep, this, Res.bind_ok]
        · intro op ho
          rcases List.mem_cons.mp ho with rfl | ho
          · trivial
          · rw [List.mem_singleton.mp ho]; exact ⟨k, m, rfl⟩
      · injection h with h
        subst h
        refine ⟨[.fetch d1.child.netifs], ?_, fun x hx => by rw [List.mem_singleton.mp hx]; trivial⟩
        simp only [childRun, hf, Res.bind_ok]
    | fail => rw [hr] at h; cases h
    | oob => rw [hr] at h; cases h
    | abort => rw [hr] at h; cases h
    | stuck => rw [hr] at h; cases h
  | link k m a b i =>
    rw [daemonStep] at h
    split at h
    · refine hone (.fetch d'.child.netifs) trivial ?_
      rw [childStep]; exact congrArg Res.ok (sendRound_child h).symm
    · injection h with h
      subst h
      exact ⟨[], rfl, fun _ hx => nomatch hx⟩
  | recv now r => exact hone (.recv now r) rfl (hlift h)
  | accept => exact hone .accept rfl (hlift h)
  | write sid ws => exact hone (.write sid ws) rfl (hlift h)

theorem run_ops {c : Conf} {es : List Event} {d d' : Daemon} (h : daemonRun c es d = .ok d') :
    ∃ ops, childRun c.opts d.child ops = .ok d'.child ∧ ∀ op ∈ ops, ∃ e ∈ es, OpOf e op := by
  refine run_induction (P := fun es d' => ∃ ops, childRun c.opts d.child ops = .ok d'.child ∧ ∀ op ∈ ops, ∃ e ∈ es, OpOf e op)
    ⟨[], rfl, fun _ hx => nomatch hx⟩ ?_ es d' h
  intro es e d1 d2 _ ⟨ops, ho, hf⟩ he
  obtain ⟨ops', ho', hf'⟩ := step_ops he
  refine ⟨ops ++ ops', ?_, ?_⟩
  · rw [childRun_append, ho]
    exact ho'
  · intro op hop
    rcases List.mem_append.mp hop with h | h
    · obtain ⟨x, hx, hxo⟩ := hf op h
      exact ⟨x, List.mem_append_left _ hx, hxo⟩
    · exact ⟨e, List.mem_append_right _ (List.mem_singleton.mpr rfl), hf' op h⟩

/-- What the table and the clients hold: frames of transmittable size that decode to what is stored beside them. -/
structure Stored (e : Entry) : Prop where
  dec : Decodes e
  min : 60 ≤ e.len

theorem captured_size {now : Option Int} {r : RawMsg} (h : Captured (.recv now r)) : r.msg.length = 1518 ∧ 60 ≤ r.len := by
  obtain ⟨index, wire, ms, m, -, h, hm, rfl⟩ := h
  obtain ⟨-, -, -, -, -, -, l1, l2⟩ := Props.C28_forward index _ ms h m hm
  unfold rawOf
  dsimp only
  refine ⟨?_, by omega⟩
  rw [List.length_append, List.length_replicate]
  unfold ETHER_MAX_LEN
  omega

theorem stored_run {c : Conf} {d0 d : Daemon} (h0 : d0.child = {}) {es : List Event} (hc : ∀ e ∈ es, Captured e)
    (h : daemonRun c es d0 = .ok d) : (∀ e ∈ d.child.queue, Stored e) ∧ ∀ x ∈ d.child.sent, Stored x.2 := by
  obtain ⟨ops, ho, hf⟩ := run_ops h
  refine entries_run (P := Stored) (fun e i l h => ⟨⟨h.dec.msg, h.dec.len, h.dec.dec⟩, h.min⟩) ?_ ?_ ?_ ho
  · intro st t r subif m hm ht
    obtain ⟨e, he, rfl⟩ := hf _ hm
    obtain ⟨h1, h2⟩ := captured_size (hc _ he)
    exact ⟨taken_decodes h1 (by omega) ht, by show 60 ≤ r.len.toNat; omega⟩
  · rw [h0]; intro e he; cases he
  · rw [h0]; intro e he; cases he

theorem stored_selected {c : CliConf} {e : Entry} (h : Stored e) : Selected c (CliIn.ofEntry e) ↔ asked c e = true := by
  obtain ⟨p, m, n, hp, -⟩ := h.dec.dec
  have h6 : e.proto < 6 := by rw [Proto.ofNum_num hp]; cases p <;> decide
  have hl := h.dec.len
  have hm := h.min
  unfold asked
  rw [Bool.and_eq_true]
  constructor
  · intro hs
    refine ⟨?_, hs.wanted⟩
    cases hi : c.indexes with
    | none => rfl
    | some l => exact List.contains_iff_mem.mpr (hs.index l hi)
  · rintro ⟨h1, h2⟩
    refine ⟨h6, ⟨by show (60 : Int) ≤ (e.len : Int); omega, by show (e.len : Int) ≤ 1518; omega⟩, ?_, h2⟩
    intro l hl
    rw [hl] at h1
    exact List.contains_iff_mem.mp h1

theorem clientMsg_skip {c : CliConf} {now : Int} {st : CliSt} {e : CliIn} (h : ¬ Selected c e) :
    clientMsg c now st e = .ok (st, [], none) := by
  rcases clientMsg_cases c now st e with ⟨_, h'⟩ | ⟨_, hs, _⟩
  · exact h'
  · exact absurd hs h

/-- The client over entries of the table. -/
theorem clientLoop_stored {c : CliConf} {now : Int} (ho : c.once = false) (hc : c.mode ≠ .print) (es : List Entry)
    (h : ∀ e ∈ es, Stored e) (hn : ∀ e ∈ es, asked c e = true → now - e.received ≤ e.ttl ∧ e.received ≤ now) :
    clientLoop c now {} (es.map CliIn.ofEntry) =
      .ok (es.map (fun e => ([], if asked c e then some (display now e) else none))) := by
  induction es with
  | nil => rfl
  | cons e es ih =>
    have h1 := h e List.mem_cons_self
    have ih := ih (fun e he => h e (List.mem_cons_of_mem _ he)) (fun e he => hn e (List.mem_cons_of_mem _ he))
    rw [List.map_cons, clientLoop]
    cases ha : asked c e with
    | true =>
      obtain ⟨h3, h4⟩ := hn e List.mem_cons_self ha
      rw [clientMsg_entry h1.dec ((stored_selected h1).mpr ha) hc h3 h4]
      simp only [Res.bind_eq, Res.bind_ok, Res.pure_eq, ho, Bool.and_false, Bool.false_eq_true, if_false]
      rw [ih, List.map_cons, ha]
      rfl
    | false =>
      rw [clientMsg_skip (fun hs => by rw [(stored_selected h1).mp hs] at ha; cases ha)]
      simp only [Res.bind_eq, Res.bind_ok, Res.pure_eq, ho, Bool.and_false, Bool.false_eq_true, if_false]
      rw [ih, List.map_cons, ha]
      rfl

theorem undisturbed_quiet {k : Nat × Nat × Bytes × Bytes} {limit : Int} {e : Event} {op : ChildOp} (h : Undisturbed k limit e)
    (ho : OpOf e op) : Props.Quiet k limit op := by
  cases op with
  | recv now r =>
    obtain rfl : e = .recv now r := ho
    refine ⟨fun pr hk => h.1 ?_, h.2⟩
    rw [← hk]
  | expire now => obtain ⟨k', m, rfl⟩ := ho; exact h
  | fetch l => trivial
  | accept => trivial
  | write sid ws => trivial

end Ladvd
