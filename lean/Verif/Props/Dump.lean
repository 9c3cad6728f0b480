import Verif.Lemmas.Dump
import Verif.Props.Cli
import Verif.Props.Parent
import Verif.Props.Path
/-!
# C60 Dumps are capture files of exactly the frames
-/

namespace Ladvd.Props
open Ladvd Ladvd.Spec

/-- Whatever is shown by `ladvdc -d` is a capture file of Ethernet frames which holds the frames of the entries shown, complete, one for each and in
their order, with the time at which each was written. -/
theorem C60_client (clock : Nat → Option (Nat × Nat)) (hc : ClockOk clock) (c : CliConf) (now : Int) (es : List CliIn)
    (hm : ∀ e ∈ es, e.msg.length = 1518) (l : List (List Bytes × Option Shown)) (h : clientLoop c now {} es = .ok l) :
    ∃ out, clientDump .file clock (l.filterMap (·.2)) = .ok out ∧ capture out = some (1, complete clock ((l.filterMap (·.2)).map (·.frame))) := by
  have hf : ∀ f ∈ (l.filterMap (·.2)).map (·.frame), f.length ≤ 1518 := by
    intro f hf
    obtain ⟨s, hs, rfl⟩ := List.mem_map.mp hf
    obtain ⟨x, hx, hxs⟩ := List.mem_filterMap.mp hs
    obtain ⟨hle, hall⟩ := C20_run c now es hm {} l h
    obtain ⟨i, hi, rfl⟩ := List.getElem_of_mem hx
    have hz : (es[i]'(by omega), l[i]) ∈ es.zip l := by
      rw [List.mem_iff_getElem]
      exact ⟨i, by rw [List.length_zip]; omega, by rw [List.getElem_zip]⟩
    obtain ⟨-, -, -, hfr, -⟩ := hall _ hz s hxs
    have hml := hm _ (List.getElem_mem (by omega : i < es.length))
    rw [hfr, List.length_take]
    dsimp only
    rw [hml]
    exact Nat.min_le_right _ _
  obtain ⟨q, h1, h2⟩ := dump_read hc hf (p := { dumping := true, file := pcapHeader }) rfl
  refine ⟨q.file, ?_, h2⟩
  have e : clientDump .file clock (l.filterMap (·.2)) =
    (pcapWrites (((l.filterMap (·.2)).map (·.frame)).mapIdx (fun i f => (clock i, f))) { dumping := true, file := pcapHeader }).bind
      (fun p => .ok (pcapClose p).file) := rfl
  rw [e, h1]
  rfl

/-- From the daemon's table to the file: the frames of the neighbours delivered to the client, none of which has expired. -/
theorem C60_table (clock : Nat → Option (Nat × Nat)) (hc : ClockOk clock) (o : Opts) (l : List Netif) (ops : List ChildOp) (st : Child)
    (h : childRun o { netifs := l } ops = .ok st) (hb : ∀ t r, ChildOp.recv (some t) r ∈ ops → r.msg.length = 1518 ∧ 26 ≤ r.len)
    (sid : Nat) (c : CliConf) (now : Int) (ho : c.once = false) (hmode : c.mode = .debug)
    (hsel : ∀ e ∈ delivered st sid, Selected c (CliIn.ofEntry e))
    (hnow : ∀ e ∈ delivered st sid, now - e.received ≤ e.ttl ∧ e.received ≤ now) :
    ∃ shown out, clientLoop c now {} ((delivered st sid).map CliIn.ofEntry) = .ok shown ∧
      clientDump .file clock (shown.filterMap (·.2)) = .ok out ∧
      capture out = some (1, complete clock ((delivered st sid).map (fun e => e.msg.take e.len))) := by
  have h1 := C20_daemon o l ops st h hb sid c now ho (by rw [hmode]; decide) hsel hnow
  have hm : ∀ e ∈ (delivered st sid).map CliIn.ofEntry, e.msg.length = 1518 := by
    intro x hx
    obtain ⟨e, he, rfl⟩ := List.mem_map.mp hx
    have hrun := entries_run (P := Decodes) (fun e i l h => ⟨h.msg, h.len, h.dec⟩)
      (fun st t r subif m hm ht => taken_decodes (hb t r hm).1 (hb t r hm).2 ht)
      (by intro e he; cases he) (by intro x hx; cases hx) h
    unfold delivered at he
    obtain ⟨y, hy, rfl⟩ := List.mem_map.mp he
    exact (hrun.2 y (List.mem_filter.mp hy).1).msg
  obtain ⟨out, h2, h3⟩ := C60_client clock hc c now _ hm _ h1
  refine ⟨_, out, h1, h2, ?_⟩
  rw [h3]
  congr 3
  rw [List.filterMap_map, List.map_filterMap]
  rw [← List.filterMap_eq_map]
  rfl

/-- Two neighbours dumped. -/
example : (match clientDump .file (fun i => some (1700000000 + i, 5)) [⟨3, lit "eth0", 0, 120, 100, {}, [1, 2, 3]⟩, ⟨4, lit "eth1", 1, 120, 90, {}, [4]⟩] with
    | .ok out => capture out | _ => none) =
    some (1, [⟨1700000000, 5, 3, [1, 2, 3]⟩, ⟨1700000001, 5, 1, [4]⟩]) := by
  decide +kernel

/-- At any moment of a debug run the output of `ladvd -d` is a capture file of Ethernet frames, which holds the frames handed over for interfaces that
exist, complete and in order; all are advertisements. -/
theorem C60_daemon (clock : Nat → Option (Nat × Nat)) (hc : ClockOk clock) (c : Conf) (hd : c.opts.has OPT_DEBUG = true) (es : List PEvent)
    (he : ∀ e ∈ es, PEventOk e) (s : Parent) (h : parentRun c es {} = .ok s) :
    ∃ out fs, daemonDump c .file clock es = .ok out ∧ HandedOver es fs ∧ capture out = some (1, complete clock fs) ∧
      ∀ f ∈ fs, 60 ≤ f.length ∧ ∃ p, Advert p f := by
  obtain ⟨fs, h1, h2, h3⟩ := parentRun_dumps hd he h
  have h2' : dumps s.acts = fs := h2
  obtain ⟨q, h4, h5⟩ := dump_read hc (fun f hf => (h3 f hf).2.1) (p := { dumping := true, file := pcapHeader }) rfl
  refine ⟨q.file, fs, ?_, h1, h5, fun f hf => ⟨(h3 f hf).1, (h3 f hf).2.2⟩⟩
  have e : daemonDump c .file clock es = (parentRun c es {}).bind (fun s =>
    (pcapWrites ((dumps s.acts).mapIdx (fun i f => (clock i, f))) { dumping := true, file := pcapHeader }).bind (fun p => .ok p.file)) := rfl
  rw [e, h, Res.bind_ok, h2', h4]
  rfl

/-- A debug run does not touch the network: no socket is opened, no group joined and no frame sent. -/
theorem C60_silent (c : Conf) (hd : c.opts.has OPT_DEBUG = true) (es : List PEvent) (he : ∀ e ∈ es, PEventOk e) (s : Parent)
    (h : parentRun c es {} = .ok s) : ∀ a ∈ s.acts, Silent a :=
  (offline_run hd he ⟨fun _ h => absurd h List.not_mem_nil, fun _ h => absurd h List.not_mem_nil⟩ h).2

/-- All advertisements that are due are dumped: the messages of the unprivileged process, one after another. -/
theorem C60_adverts (h : Host) (e : SysEnv) (he : SysEnvOk e) (os : List Opt) (ho : OptsOk os) (args : List Bytes) (c : Conf)
    (pwd : Option (Nat × Nat)) (d0 : Daemon) (hs : startUp h e os args = .ok (c, pwd, d0)) (es : List Event) (hes : ∀ e ∈ es, SaneEvent e)
    (d : Daemon) (hr : daemonRun c es d0 = .ok d) (k : Kernel) (hk : Sane k) (m : Media) (ev : Event)
    (hev : (∃ now, ev = .timer k m now) ∨ ∃ i, ev = .link k m true true i) (d' : Daemon) (hst : daemonStep c d ev = .ok d')
    (hd : c.opts.has OPT_DEBUG = true) :
    ∃ new, d'.tx = d.tx ++ new ∧ ∀ env : PEnv, PEnvOk env → (∀ t ∈ new, (env.ifName t.index).isSome) → ∀ s : Parent,
      ∃ s', parentRun c (new.map (fun t => .send env (txBytes t))) s = .ok s' ∧
        dumps s'.acts = dumps s.acts ++ new.map (fun t => t.msg.take t.len) := by
  obtain ⟨new, hn, hf⟩ := announced c (booted he ho hs) es hes d hr k hk m ev hev d' hst
  refine ⟨new, hn, fun env henv hname => ?_⟩
  clear hn
  induction new with
  | nil => intro s; exact ⟨s, rfl, (List.append_nil _).symm⟩
  | cons t ts ih =>
    intro s
    obtain ⟨n, -, hi, penv, seq, msg, hok, -, -, -, -, hidx, -, hw⟩ := hf t List.mem_cons_self
    have hmax := hw.max
    have hmin := hw.min
    have hlen := hw.len
    have hh : Hands ((txBytes t).take 1558) t.index t.proto.num (t.msg.take t.len) := by
      rw [txBytes_take t (by omega)]
      exact hands_tx t (by rw [← hidx]; exact hok.1.1) (by omega) hw.length
    have hlen' := hw.length
    have hsend : parentSend c env s (txBytes t) = .ok (s.log (.dump (t.msg.take t.len))) := by
      rcases parentSend_cases (c := c) henv s (txBytes t) with ⟨hno, -⟩ | ⟨i, p, f, hh', hcase⟩
      · exact absurd hh (hno _ _ _)
      obtain ⟨rfl, rfl, rfl⟩ := hands_inj hh hh'
      rcases hcase with ⟨hnone, -⟩ | ⟨name, -, ⟨hbad, -⟩ | ⟨-, e1⟩⟩
      · have := hname t List.mem_cons_self
        rw [hnone] at this
        cases this
      · exact absurd ⟨by omega, hw.advert⟩ hbad
      · rw [e1, if_pos hd]
    obtain ⟨s', h1, h2⟩ := ih (fun x hx => hf x (List.mem_cons_of_mem _ hx)) (fun x hx => hname x (List.mem_cons_of_mem _ hx))
      (s.log (.dump (t.msg.take t.len)))
    refine ⟨s', ?_, ?_⟩
    · rw [List.map_cons, parentRun, parentStep, hsend]
      exact h1
    · rw [h2]
      unfold Parent.log
      rw [dumps_append, List.map_cons, List.append_assoc]
      rfl

/-- Nothing is written to a terminal: both programs give up. -/
theorem C60_terminal (o : Stdout) (clock : Nat → Option (Nat × Nat)) (shown : List Shown) (c : Conf) (es : List PEvent)
    (h : o ≠ .file) : clientDump o clock shown = .abort ∧ daemonDump c o clock es = .abort := by
  cases o <;> first | exact ⟨rfl, rfl⟩ | exact absurd rfl h

/-- A debug run: one frame for an interface, one for an interface that does not exist, and a request to open a socket. -/
example : (match daemonDump debugConf .file (fun i => some (1700000000 + i, 5))
      [.req sampleEnv (ask 0 2 []), .send sampleEnv (hand 2 0 sampleFrame), .send sampleEnv (hand 9 0 sampleFrame)] with
    | .ok out => capture out | _ => none) = some (1, [⟨1700000000, 5, 60, sampleFrame⟩]) := by decide +kernel

end Ladvd.Props
