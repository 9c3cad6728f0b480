import Verif.Lemmas.Rawfd
/-!
# The privileged process: requests, frames, sockets, multicast groups (C25, C26, C27)
-/

namespace Ladvd.Props
open Ladvd Ladvd.Spec

/-! ## Samples -/

/-- A request as the unprivileged process writes it. -/
def ask (op i : Nat) (payload : Bytes) : Bytes :=
  UInt8.ofNat op :: [0, 0, 0] ++ leBytes 4 i ++ List.replicate 16 0 ++ leBytes 8 payload.length ++ payload

theorem ask_asks {op i : Nat} {payload : Bytes} (h1 : op < 256) (h2 : i < 2 ^ 32) (h3 : payload.length ≤ 512) :
    Asks ((ask op i payload).take 544) op i payload := by
  refine ⟨[0, 0, 0], List.replicate 16 0, rfl, rfl, h1, h2, h3, ?_⟩
  have : (ask op i payload).length = 32 + payload.length := by
    unfold ask
    simp only [List.length_append, List.length_cons, List.length_nil, leBytes_length, List.length_replicate]
  rw [List.take_of_length_le (by omega)]
  rfl

/-- A message handing over a frame. -/
def hand (i p : Nat) (f : Bytes) : Bytes :=
  leBytes 4 i ++ List.replicate 16 0 ++ [UInt8.ofNat p] ++ List.replicate 11 0 ++ leBytes 8 f.length ++ f

/-- An LLDP frame of 60 bytes. -/
def sampleFrame : Bytes := [0x01, 0x80, 0xc2, 0x00, 0x00, 0x0e, 2, 0, 0, 0, 0, 1, 0x88, 0xcc] ++ List.replicate 46 0

/-- A system with the interface `eth0` (index 2). -/
def sampleEnv : PEnv where
  ifName i := if i = 2 then some (lit "eth0") else none
  alias n := if n = lit "eth0" then some (lit "uplink\n") else none
  aliasWrite _ t := some t.length
  sock _ := .ok
  write _ _ := .sent

theorem sampleEnv_ok : PEnvOk sampleEnv := by
  constructor
  · intro i n h
    dsimp only [sampleEnv] at h
    split at h
    · cases h; decide
    · cases h
  · intro drv n d h; cases h

/-- Receiving, LLDP and CDP enabled. -/
def sampleConf : Conf := { opts := 1 <<< OPT_RECV, enabled := fun p => p == .lldp || p == .cdp }

/-! ## C25: requests and frames are validated -/

/-- Whatever arrives on the two sockets, the process either handles it or terminates; there is no access outside an object. -/
theorem C25_safe (c : Conf) (env : PEnv) (he : PEnvOk env) (s : Parent) (dg : Bytes) :
    ((∃ s' b, parentReq c env s dg = .ok (s', b)) ∨ parentReq c env s dg = .abort) ∧
    ((∃ s', parentSend c env s dg = .ok s') ∨ parentSend c env s dg = .abort) := by
  constructor
  · rcases parentReq_cases (c := c) he s dg with ⟨-, h1⟩ | ⟨op, i, payload, -, ⟨-, b', h1, -⟩ | ⟨name, -, ⟨-, h1⟩ |
      ⟨-, ⟨-, -, -, -, h1⟩ | ⟨s1, b1, out, new, h1, -⟩⟩⟩⟩
    · exact .inr h1
    · exact .inl ⟨_, _, h1⟩
    · exact .inr h1
    · exact .inr h1
    · exact .inl ⟨_, _, h1⟩
  · rcases parentSend_cases (c := c) he s dg with ⟨-, h1⟩ | ⟨i, p, f, -, ⟨-, h1⟩ | ⟨name, -, ⟨-, h1⟩ | ⟨-, h1⟩⟩⟩
    · exact .inl ⟨_, h1⟩
    · exact .inl ⟨_, h1⟩
    · exact .inr h1
    · cases hd : c.opts.has OPT_DEBUG with
      | true => rw [h1, hd, if_pos rfl]; exact .inl ⟨_, rfl⟩
      | false =>
        rw [h1, hd, if_neg (by decide), sendOn_eq c hd]
        split
        · exact .inl ⟨_, rfl⟩
        · split
          · exact .inr rfl
          · exact .inl ⟨_, rfl⟩
          · exact .inl ⟨_, rfl⟩

/-- The whole life of the process: it runs until some event terminates it, never into undefined behaviour. -/
theorem C25_safe_run (c : Conf) (es : List PEvent) (he : ∀ e ∈ es, PEventOk e) :
    (∃ s, parentRun c es {} = .ok s) ∨ parentRun c es {} = .abort := by
  suffices H : ∀ es : List PEvent, (∀ e ∈ es, PEventOk e) → ∀ s, PInv c s → (∃ s', parentRun c es s = .ok s') ∨ parentRun c es s = .abort from
    H es he {} (pinv_init c)
  intro es
  induction es with
  | nil => intro _ s _; exact .inl ⟨s, rfl⟩
  | cons e es ih =>
    intro he s hinv
    have hstep : (∃ s' x, parentStep c s e = .ok (s', x)) ∨ parentStep c s e = .abort := by
      cases e with
      | req env dg =>
        rw [parentStep]
        rcases (C25_safe c env (he _ List.mem_cons_self) s dg).1 with ⟨s', b, h⟩ | h
        · rw [h]; exact .inl ⟨s', _, rfl⟩
        · rw [h]; exact .inr rfl
      | send env dg =>
        rw [parentStep]
        rcases (C25_safe c env (he _ List.mem_cons_self) s dg).2 with ⟨s', h⟩ | h
        · rw [h]; exact .inl ⟨s', _, rfl⟩
        · rw [h]; exact .inr rfl
      | recv i caps =>
        rw [parentStep]
        split
        · exact .inl ⟨s, _, rfl⟩
        · split
          · exact .inl ⟨s, _, rfl⟩
          · split
            · exact .inr rfl
            · have : ∃ ms, parentRecv i caps = .ok ms := ⟨_, (C28_exact i caps).choose_spec.1⟩
              obtain ⟨ms, h⟩ := this
              rw [h]; exact .inl ⟨s, _, rfl⟩
    rw [parentRun]
    rcases hstep with ⟨s', x, h⟩ | h
    · rw [h]
      exact ih (fun e' h' => he e' (List.mem_cons_of_mem _ h')) s' (parentStep_pinv (he e List.mem_cons_self) hinv h)
    · rw [h]; exact .inr rfl

/-- The process terminates on a request exactly if the datagram is not a request, or asks about an existing interface for something outside
the fixed set of operations and sizes, or the packet capture library fails fatally for the socket to be opened. -/
theorem C25_refused (c : Conf) (env : PEnv) (he : PEnvOk env) (s : Parent) (dg : Bytes) :
    parentReq c env s dg = .abort ↔
      ∀ op i payload, Asks (dg.take 544) op i payload → ∃ name, env.ifName i = some name ∧
        (¬ Served op payload.length ∨
          op = 0 ∧ (∀ r ∈ s.rawfds, r.index ≠ i) ∧ c.opts.has OPT_DEBUG = false ∧ env.sock name = .fatal) := by
  constructor
  · intro h op i payload hask
    rcases parentReq_cases (c := c) he s dg with ⟨h1, -⟩ | ⟨op', i', payload', hask', h1⟩
    · exact absurd hask (h1 op i payload)
    · obtain ⟨rfl, rfl, rfl⟩ := asks_inj hask hask'
      rcases h1 with ⟨-, b', h1, -⟩ | ⟨name, hn, ⟨hns, -⟩ | ⟨-, ⟨h0, hr, hd, hk, -⟩ | ⟨s1, b1, out, new, h1, -⟩⟩⟩
      · rw [h1] at h; cases h
      · exact ⟨name, hn, .inl hns⟩
      · exact ⟨name, hn, .inr ⟨h0, rfdByIndex_none.mp hr, hd, hk⟩⟩
      · rw [h1] at h; cases h
  · intro h
    rcases parentReq_cases (c := c) he s dg with ⟨-, h1⟩ | ⟨op, i, payload, hask, h1⟩
    · exact h1
    · obtain ⟨name', hn', hcase⟩ := h op i payload hask
      rcases h1 with ⟨hnone, -⟩ | ⟨name, hn, ⟨-, h1⟩ | ⟨hsv, ⟨-, -, -, -, h1⟩ | ⟨s1, b1, out, new, h1, -, hacts, -, -, hst⟩⟩⟩
      · rw [hnone] at hn'; cases hn'
      · exact h1
      · exact h1
      · rw [hn] at hn'
        cases hn'
        rcases hcase with h | ⟨h0, hr, hd, hk⟩
        · exact absurd hsv h
        · rcases hst with ⟨-, -, e | ⟨-, ⟨-, ⟨r, e⟩ | e⟩ | e⟩⟩ | ⟨-, -, e | e, -⟩ | ⟨e, -⟩
          · exact absurd h0 e.1
          · exact absurd (rfdByIndex_some e).2 (hr r (rfdByIndex_some e).1)
          · rw [hk] at e; cases e.2
          · omega
          · rw [hd] at e; cases e
          · rw [hk] at e; cases e
          · omega

/-- The effects of a request are those its operation stands for, on the interface it names. -/
theorem C25_request (c : Conf) (env : PEnv) (he : PEnvOk env) (s s' : Parent) (dg b : Bytes) (h : parentReq c env s dg = .ok (s', b)) :
    ∃ op i payload out new, Asks (dg.take 544) op i payload ∧ Asks b op i out ∧ s'.acts = s.acts ++ new ∧
      match env.ifName i with
      | none => s' = s ∧ out = []
      | some name => Served op payload.length ∧ (∀ a ∈ new, Entitled op i name payload a) ∧ Answers env op i name payload out := by
  rcases parentReq_cases (c := c) he s dg with ⟨-, h1⟩ | ⟨op, i, payload, hask, ⟨hn, b', h1, hb⟩ | ⟨name, hn, ⟨-, h1⟩ |
    ⟨hsv, ⟨-, -, -, -, h1⟩ | ⟨s1, b1, out, new, h1, hb, hacts, hent, hans, hst⟩⟩⟩⟩
  · rw [h1] at h; cases h
  · rw [h1] at h
    cases h
    refine ⟨op, i, payload, [], [], hask, hb, by simp, ?_⟩
    rw [hn]
    exact ⟨rfl, rfl⟩
  · rw [h1] at h; cases h
  · rw [h1] at h; cases h
  · rw [h1] at h
    cases h
    refine ⟨op, i, payload, out, new, hask, hb, hacts, ?_⟩
    rw [hn]
    exact ⟨hsv, hent, hans⟩

/-- The client accepts every reply and finds the answer in it: same operation, same interface, length and contents of the answer. -/
theorem C25_reply (c : Conf) (env : PEnv) (he : PEnvOk env) (s s' : Parent) (dg b : Bytes) (h : parentReq c env s dg = .ok (s', b)) :
    ∃ op i payload out r, Asks (dg.take 544) op i payload ∧ Asks b op i out ∧ b.length = 32 + out.length ∧ b.length ≤ 544 ∧
      mreqReply b = .ok r ∧ r.op.toNat = op ∧ r.index = i ∧ r.len = out.length ∧ r.buf.take r.len = out := by
  obtain ⟨op, i, payload, out, new, h1, h2, -⟩ := C25_request c env he s s' dg b h
  obtain ⟨r, e, r1, r2, r3, r4⟩ := mreqReply_asks h2
  obtain ⟨_, _, -, -, hl, -⟩ := reqOf_asks h2 []
  have h2' := h2
  obtain ⟨_, _, -, -, ho, -, hl2, -⟩ := h2'
  refine ⟨op, i, payload, out, r, h1, h2, hl, by omega, e, ?_, r2, r3, ?_⟩
  · rw [r1, UInt8.toNat_ofNat']; omega
  · rw [r3, r4, List.take_left]

/-- A datagram on the message socket has no effect but to transmit, on the interface it names, the frame it hands over, which is a valid
advertisement of a supported protocol of at least 60 bytes (and to open or close the socket for that). -/
theorem C25_frames (c : Conf) (env : PEnv) (he : PEnvOk env) (s s' : Parent) (dg : Bytes) (h : parentSend c env s dg = .ok s') :
    ∃ new, s'.acts = s.acts ++ new ∧ ∀ a ∈ new, Conveys env dg a := by
  obtain ⟨new, h1, h2, -⟩ := parentSend_acts he h
  exact ⟨new, h1, h2⟩

/-- All effects in the life of the process are allowed by one of the events; in particular every frame transmitted is a valid advertisement
handed over by the other process. -/
theorem C25_history (c : Conf) (es : List PEvent) (he : ∀ e ∈ es, PEventOk e) (s : Parent) (h : parentRun c es {} = .ok s) :
    (∀ a ∈ s.acts, ∃ e ∈ es, Allowed e a) ∧
    ∀ j f, Act.frame j f ∈ s.acts → ∃ env dg p, PEvent.send env dg ∈ es ∧ Hands (dg.take 1558) j p f ∧ 60 ≤ f.length ∧ Advert p f := by
  obtain ⟨new, h1, h2, -⟩ := parentRun_acts he h
  have hall : ∀ a ∈ s.acts, ∃ e ∈ es, Allowed e a := by
    intro a ha
    rw [h1] at ha
    obtain ⟨e, he, h, -⟩ := h2 a (by simpa using ha)
    exact ⟨e, he, h⟩
  refine ⟨hall, ?_⟩
  intro j f hf
  obtain ⟨e, hm, ha⟩ := hall _ hf
  cases e with
  | req env dg =>
    obtain ⟨_, _, _, _, -, -, -, h⟩ := ha
    exact h.elim
  | send env dg =>
    obtain ⟨p, h1, h2, h3⟩ := ha
    exact ⟨env, dg, p, hm, h1, h2, h3⟩
  | recv _ _ => exact ha.elim

/-- A description is written to the interface named. -/
example : parentReq sampleConf sampleEnv {} (ask 2 2 (lit "to sw1")) =
    .ok ({ acts := [.aliasWrite (lit "eth0") (lit "to sw1")] },
      [2, 0, 0, 0, 2, 0, 0, 0] ++ lit "eth0" ++ List.replicate 12 0 ++ [6, 0, 0, 0, 0, 0, 0, 0] ++ lit "to sw1") := by
  decide +kernel
example : Asks ((ask 2 2 (lit "to sw1")).take 544) 2 2 (lit "to sw1") := ask_asks (by decide) (by decide) (by decide)
example : Served 2 (lit "to sw1").length := by unfold Served; decide
/-- A description of 65 bytes is refused, as is an unknown operation, a short datagram and a length that does not match. -/
example : parentReq sampleConf sampleEnv {} (ask 2 2 (List.replicate 65 65)) = .abort := by decide +kernel
example : parentReq sampleConf sampleEnv {} (ask 9 2 []) = .abort := by decide +kernel
example : parentReq sampleConf sampleEnv {} (ask 4 2 [1] ++ [0]) = .abort := by decide +kernel
example : parentReq sampleConf sampleEnv {} [4, 0, 0, 0] = .abort := by decide +kernel
/-- A frame is transmitted on a new socket. -/
example : (parentSend { sampleConf with opts := 0 } sampleEnv {} (hand 2 0 sampleFrame)) =
    .ok { rawfds := [⟨2, lit "eth0", true, false, []⟩], fds := [2],
          acts := [.socket 2 (lit "eth0") (socketFilter false), .frame 2 sampleFrame] } := by
  decide +kernel
/-- Other frames are refused. -/
example : parentSend sampleConf sampleEnv {} (hand 2 1 sampleFrame) = .abort := by decide +kernel
example : parentSend sampleConf sampleEnv {} (hand 2 6 sampleFrame) = .abort := by decide +kernel
example : parentSend sampleConf sampleEnv {} (hand 2 0 (sampleFrame.take 59)) = .abort := by decide +kernel
example : parentSend sampleConf sampleEnv {} (hand 2 0 (1 :: sampleFrame.drop 1 |>.set 5 1)) = .abort := by decide +kernel

/-! ## C26: one raw socket per interface -/

/-- At any time there is at most one record per interface; except in a debug run the records are the open sockets, and of the sockets opened on
an interface so far all but at most one have been closed. -/
theorem C26_unique (c : Conf) (es : List PEvent) (he : ∀ e ∈ es, PEventOk e) (s : Parent) (h : parentRun c es {} = .ok s) :
    (s.rawfds.map (·.index)).Nodup ∧
    (c.opts.has OPT_DEBUG = false → s.fds.Nodup ∧ s.fds = s.rawfds.map (·.index) ∧
      ∀ i, s.acts.countP (fun a => match a with | .socket j _ _ => j == i | _ => false) =
        s.acts.countP (fun a => match a with | .close j => j == i | _ => false) + (if i ∈ s.fds then 1 else 0)) := by
  have hinv := parentRun_pinv he (pinv_init c) h
  refine ⟨hinv.nodup, fun hd => ?_⟩
  have hf := hinv.fds hd
  have hn : s.fds.Nodup := by rw [hf]; exact hinv.nodup
  refine ⟨hn, hf, fun i => ?_⟩
  have hc := hinv.count hd i
  have e1 : Act.opens i = fun a => match a with | .socket j _ _ => j == i | _ => false := by
    funext a; cases a <;> rfl
  have e2 : Act.closes i = fun a => match a with | .close j => j == i | _ => false := by
    funext a; cases a <;> rfl
  rw [e1, e2] at hc
  rw [hc]
  congr 1
  split
  · rename_i hi
    exact Nat.le_antisymm (List.nodup_iff_count.mp hn i) (List.count_pos_iff.mpr hi)
  · rename_i hi
    exact List.count_eq_zero.mpr hi

/-- Opening: afterwards the interface has exactly one socket, if the system grants it, and the other sockets are as before. -/
theorem C26_open (c : Conf) (hd : c.opts.has OPT_DEBUG = false) (es : List PEvent) (he : ∀ e ∈ es, PEventOk e) (s : Parent)
    (hr : parentRun c es {} = .ok s) (env : PEnv) (henv : PEnvOk env) (dg b : Bytes) (s' : Parent) (h : parentReq c env s dg = .ok (s', b))
    (i : Nat) (payload : Bytes) (ha : Asks (dg.take 544) 0 i payload) (name : Bytes) (hn : env.ifName i = some name) (hk : env.sock name = .ok) :
    s'.fds = if i ∈ s.fds then s.fds else s.fds ++ [i] := by
  have hinv := parentRun_pinv he (pinv_init c) hr
  have hmem : ∀ r, rfdByIndex s i = some r → i ∈ s.fds := by
    intro r hr
    rw [hinv.fds hd]
    exact List.mem_map.mpr ⟨r, (rfdByIndex_some hr).1, (rfdByIndex_some hr).2⟩
  rcases parentReq_cases (c := c) henv s dg with ⟨-, h1⟩ | ⟨op, i', payload', hask, h1⟩
  · rw [h1] at h; cases h
  · obtain ⟨rfl, rfl, rfl⟩ := asks_inj ha hask
    rcases h1 with ⟨h1, -⟩ | ⟨name', hn', ⟨-, h1⟩ | ⟨hsv, ⟨-, -, -, -, h1⟩ | ⟨s1, b1, out, new, h1, -, -, -, -, hst⟩⟩⟩
    · rw [h1] at hn; cases hn
    · rw [h1] at h; cases h
    · rw [h1] at h; cases h
    · rw [h1] at h
      cases h
      rw [hn] at hn'
      cases hn'
      rcases hst with ⟨-, e2, e | ⟨-, ⟨-, ⟨r, e⟩ | e⟩ | e⟩⟩ | ⟨-, e, -, hs⟩ | ⟨e, -⟩
      · exact absurd rfl e.1
      · rw [if_pos (hmem r e), e2]
      · rw [hk] at e; cases e.2
      · exact absurd e.1 (by decide)
      · rw [hs, if_neg]
        rw [hinv.fds hd]
        intro hm
        obtain ⟨r, hr, hri⟩ := List.mem_map.mp hm
        exact rfdByIndex_none.mp e r hr hri
      · exact absurd e (by decide)

/-- Closing an interface that still exists releases its socket and no other.  Missing: an interface that has vanished
(`C26_close_vanished`) and debug runs (`C26_debug`). -/
theorem C26_close_partial (c : Conf) (hd : c.opts.has OPT_DEBUG = false) (es : List PEvent) (he : ∀ e ∈ es, PEventOk e) (s : Parent)
    (hr : parentRun c es {} = .ok s) (env : PEnv) (henv : PEnvOk env) (dg : Bytes)
    (i : Nat) (payload : Bytes) (ha : Asks (dg.take 544) 1 i payload) (name : Bytes) (hn : env.ifName i = some name) :
    ∃ s' b, parentReq c env s dg = .ok (s', b) ∧ i ∉ s'.fds ∧ (∀ r ∈ s'.rawfds, r.index ≠ i) ∧ ∀ j, j ≠ i → (j ∈ s'.fds ↔ j ∈ s.fds) := by
  have hinv := parentRun_pinv he (pinv_init c) hr
  rcases parentReq_cases (c := c) henv s dg with ⟨h1, -⟩ | ⟨op, i', payload', hask, h1⟩
  · exact absurd ha (h1 _ _ _)
  · obtain ⟨rfl, rfl, rfl⟩ := asks_inj ha hask
    rcases h1 with ⟨h1, -⟩ | ⟨name', hn', ⟨hns, -⟩ | ⟨hsv, ⟨h0, -⟩ | ⟨s1, b1, out, new, h1, -, -, -, -, hst⟩⟩⟩
    · rw [h1] at hn; cases hn
    · exact absurd (by unfold Served; refine ⟨by decide, ?_, ?_, ?_⟩ <;> (intro h; cases h)) hns
    · cases h0
    · refine ⟨s1, b1, h1, ?_⟩
      have hinv1 : PInv c s1 := parentReq_pinv henv hinv h1
      rcases hst with ⟨e1, e2, e | ⟨-, ⟨e, -⟩ | ⟨-, e⟩⟩⟩ | ⟨e, -⟩ | ⟨-, r, hr, hs⟩
      · exact absurd rfl e.2
      · cases e
      · rw [e1, e2]
        refine ⟨?_, rfdByIndex_none.mp e, fun j _ => Iff.rfl⟩
        rw [hinv.fds hd]
        intro hm
        obtain ⟨r, hr, hri⟩ := List.mem_map.mp hm
        exact rfdByIndex_none.mp e r hr hri
      · cases e
      · have hri := (rfdByIndex_some hr).2
        have hrm := (rfdByIndex_some hr).1
        have hh := (hinv.shape r hrm).1
        rw [hd, Bool.not_false] at hh
        have hnd : s.fds.Nodup := by rw [hinv.fds hd]; exact hinv.nodup
        have hfd : s1.fds = s.fds.erase i := by rw [hs, parentClose_eq]; dsimp only; rw [if_pos hh, hri]
        have hni : i ∉ s1.fds := by rw [hfd]; exact hnd.not_mem_erase
        refine ⟨hni, ?_, ?_⟩
        · intro x hx hxi
          apply hni
          rw [hinv1.fds hd]
          exact List.mem_map.mpr ⟨x, hx, hxi⟩
        · intro j hj
          rw [hfd]
          exact List.mem_erase_of_ne hj

/-- A frame for an interface that has gone (the write fails with `ENODEV` or `EIO`) closes its socket. -/
theorem C26_gone (c : Conf) (hd : c.opts.has OPT_DEBUG = false) (es : List PEvent) (he : ∀ e ∈ es, PEventOk e) (s : Parent)
    (hr : parentRun c es {} = .ok s) (env : PEnv) (henv : PEnvOk env) (dg : Bytes) (s' : Parent) (h : parentSend c env s dg = .ok s')
    (i p : Nat) (f : Bytes) (ha : Hands (dg.take 1558) i p f) (name : Bytes) (hn : env.ifName i = some name) (hw : env.write i f = .gone) :
    i ∉ s'.fds := by
  have hinv := parentRun_pinv he (pinv_init c) hr
  rcases parentSend_cases (c := c) henv s dg with ⟨h1, -⟩ | ⟨i', p', f', hh, h1⟩
  · exact absurd ha (h1 _ _ _)
  · obtain ⟨rfl, rfl, rfl⟩ := hands_inj ha hh
    rcases h1 with ⟨h1, -⟩ | ⟨name', hn', ⟨-, h1⟩ | ⟨-, h1⟩⟩
    · rw [h1] at hn; cases hn
    · rw [h1] at h; cases h
    · rw [h1, hd, if_neg (by decide), sendOn_eq c hd] at h
      have key : ∀ (s1 : Parent) (r : Rfd), PInv c s1 → r ∈ s1.rawfds → r.index = i → i ∉ (transmit c env r f s1).fds := by
        intro s1 r h1 hrm hri
        have hh := (h1.shape r hrm).1
        rw [hd, Bool.not_false] at hh
        have hnd : s1.fds.Nodup := by rw [h1.fds hd]; exact h1.nodup
        unfold transmit
        rw [hri, hw]
        dsimp only
        rw [parentClose_eq]
        dsimp only
        rw [if_pos hh, hri]
        exact hnd.not_mem_erase
      match hx : rfdByIndex s i with
      | some r =>
        rw [hx] at h
        cases h
        exact key s r hinv (rfdByIndex_some hx).1 (rfdByIndex_some hx).2
      | none =>
        rw [hx] at h
        dsimp only at h
        match hk : env.sock name' with
        | .fatal => rw [hk] at h; cases h
        | .failed =>
          rw [hk] at h
          cases h
          rw [hinv.fds hd]
          intro hm
          obtain ⟨r, hr, hri⟩ := List.mem_map.mp hm
          exact rfdByIndex_none.mp hx r hr hri
        | .ok =>
          rw [hk] at h
          cases h
          exact key _ _ (pinv_open hinv hx) (List.mem_append_right _ List.mem_cons_self) (newRfd_index _ _ _ _)

/-- When the process ends it closes all sockets. -/
theorem C26_quit (c : Conf) (hd : c.opts.has OPT_DEBUG = false) (es : List PEvent) (he : ∀ e ∈ es, PEventOk e) (s : Parent)
    (hr : parentRun c es {} = .ok s) (env : PEnv) : (parentQuit c env s).rawfds = [] ∧ (parentQuit c env s).fds = [] := by
  have hinv := parentRun_pinv he (pinv_init c) hr
  obtain ⟨h1, h2⟩ := closeAll_pinv (env := env) s.rawfds hinv rfl
  refine ⟨h2, ?_⟩
  have := h1.fds hd
  unfold parentQuit
  rw [this, h2]
  rfl

/-- The filter on every socket: without receiving it accepts no frame at all, otherwise it is the capture filter of C11. -/
theorem C26_filter (c : Conf) (es : List PEvent) (he : ∀ e ∈ es, PEventOk e) (s : Parent) (h : parentRun c es {} = .ok s)
    (j : Nat) (n : Bytes) (flt : List Insn) (hm : Act.socket j n flt ∈ s.acts) :
    if c.opts.has OPT_RECV then flt = protoFilter else ∀ f, ¬ Accepts flt f := by
  obtain ⟨new, h1, h2, -⟩ := parentRun_acts he h
  rw [h1] at hm
  obtain ⟨e, -, -, h3, -⟩ := h2 _ (by simpa using hm)
  have := h3 j n flt rfl
  rw [this]
  cases c.opts.has OPT_RECV with
  | true => rfl
  | false => rw [if_neg (by decide)]; exact C11_send_only

/-- Frames captured on a socket that is open for receiving are forwarded as C28 says, in every state of the process; on others nothing is
forwarded; neither changes the state or terminates the process. -/
theorem C28_listening (c : Conf) (es : List PEvent) (he : ∀ e ∈ es, PEventOk e) (s : Parent) (h : parentRun c es {} = .ok s)
    (i : Nat) (caps : List Bytes) :
    ∃ ms, parentStep c s (.recv i caps) = .ok (s, [], ms) ∧
      ms.map fwdView = (if c.opts.has OPT_RECV = true ∧ c.opts.has OPT_DEBUG = false ∧ i ∈ s.fds then forwarded i caps else []) := by
  have hinv := parentRun_pinv he (pinv_init c) h
  obtain ⟨ms, hms, hv⟩ := C28_exact i caps
  rw [parentStep]
  cases hr : rfdByIndex s i with
  | none =>
    refine ⟨[], rfl, ?_⟩
    rw [if_neg]
    · rfl
    · rintro ⟨-, hd, hm⟩
      rw [hinv.fds hd] at hm
      obtain ⟨r, hrm, hri⟩ := List.mem_map.mp hm
      exact rfdByIndex_none.mp hr r hrm hri
  | some r =>
    have hmem : r ∈ s.rawfds := List.mem_of_find?_eq_some hr
    have hri : r.index = i := by simpa using List.find?_some hr
    obtain ⟨hh, hl⟩ := hinv.shape r hmem
    dsimp only
    rw [hh, hl, hms]
    unfold listens
    cases hd : c.opts.has OPT_DEBUG with
    | true => exact ⟨[], by cases c.opts.has OPT_RECV <;> rfl, by simp⟩
    | false =>
      cases ho : c.opts.has OPT_RECV with
      | false => exact ⟨[], rfl, by simp⟩
      | true =>
        refine ⟨ms, rfl, ?_⟩
        rw [if_pos ⟨rfl, rfl, by rw [hinv.fds hd]; exact List.mem_map.mpr ⟨r, hmem, hri⟩⟩]
        exact hv

/-- The system after `eth0` is gone. -/
def emptyEnv : PEnv := { sampleEnv with ifName := fun _ => none }

/-- `eth0` open for receiving. -/
def opened : Parent where
  rawfds := [⟨2, lit "eth0", true, true, [[0x01, 0x80, 0xc2, 0x00, 0x00, 0x0e], [0x01, 0x00, 0x0c, 0xcc, 0xcc, 0xcc]]⟩]
  fds := [2]
  acts := [.socket 2 (lit "eth0") protoFilter, .member 2 true [0x01, 0x80, 0xc2, 0x00, 0x00, 0x0e],
    .member 2 true [0x01, 0x00, 0x0c, 0xcc, 0xcc, 0xcc]]

example : parentRun sampleConf [.req sampleEnv (ask 0 2 [])] {} = .ok opened := by decide +kernel
example : parentRun sampleConf [.req sampleEnv (ask 0 2 []), .req sampleEnv (ask 0 2 []), .send sampleEnv (hand 2 0 sampleFrame)] {} =
    .ok { opened with acts := opened.acts ++ [.frame 2 sampleFrame] } := by decide +kernel

/-- A frame on the open interface, and one on another. -/
example : (match parentStep sampleConf opened (.recv 2 [sampleFrame]) with | .ok (_, _, ms) => some ms | _ => none) =
      some [⟨2, .lldp, sampleFrame⟩] ∧
    (match parentStep sampleConf opened (.recv 3 [sampleFrame]) with | .ok (_, _, ms) => some ms | _ => none) = some [] := by
  decide +kernel

/-- An interface that no longer exists cannot be closed: its socket stays open. -/
theorem C26_close_vanished : ∃ b,
    parentRun sampleConf [.req sampleEnv (ask 0 2 [])] {} = .ok opened ∧ opened.fds = [2] ∧
    parentReq sampleConf emptyEnv opened (ask 1 2 []) = .ok (opened, b) :=
  ⟨ask 1 2 [], by decide +kernel⟩

/-- The frame that finds the interface gone closes the socket. -/
example : (match parentSend sampleConf { sampleEnv with write := fun _ _ => .gone } opened (hand 2 0 sampleFrame) with
    | .ok s => s.fds == [] | _ => false) = true := by decide +kernel
example : (parentQuit sampleConf sampleEnv opened).fds = [] := by decide +kernel

/-- A debug run. -/
def debugConf : Conf := { opts := 1 <<< OPT_DEBUG, enabled := fun p => p == .lldp }

/-- In a debug run closing never releases the descriptor. -/
theorem C26_debug : parentRun debugConf
    [.req sampleEnv (ask 0 2 []), .req sampleEnv (ask 1 2 []), .req sampleEnv (ask 0 2 []), .req sampleEnv (ask 1 2 [])] {} =
    .ok { rawfds := [], fds := [2, 2], acts := [] } := by
  decide +kernel

/-! ## C27: multicast groups -/

/-- Every open socket is a member of the groups of the protocols enabled (of all with automatic detection), once for each, if the daemon
receives; otherwise of none. -/
theorem C27_open (c : Conf) (es : List PEvent) (he : ∀ e ∈ es, PEventOk e) (hacc : ∀ e ∈ es, Accepting e) (s : Parent)
    (h : parentRun c es {} = .ok s) (r : Rfd) (hr : r ∈ s.rawfds) :
    r.groups = if c.opts.has OPT_RECV && !c.opts.has OPT_DEBUG then joined c.enabled (c.opts.has OPT_AUTO) else [] := by
  obtain ⟨new, -, -, h3⟩ := parentRun_acts he h
  rcases h3 r hr with h | ⟨e, hm, env, i, name, hacc', rfl⟩
  · cases h
  · exact newRfd_groups c env (hacc' (hacc e hm)) i name

/-- The groups as a set. -/
theorem C27_groups (on : Proto → Bool) (auto : Bool) (g : Bytes) : g ∈ joined on auto ↔
    (auto ∨ on .lldp) ∧ g = [0x01, 0x80, 0xc2, 0x00, 0x00, 0x0e] ∨ (auto ∨ on .cdp ∨ on .cdp1) ∧ g = [0x01, 0x00, 0x0c, 0xcc, 0xcc, 0xcc] ∨
    (auto ∨ on .edp) ∧ g = [0x00, 0xe0, 0x2b, 0x00, 0x00, 0x00] ∨ (auto ∨ on .fdp) ∧ g = [0x01, 0xe0, 0x52, 0xcc, 0xcc, 0xcc] ∨
    (auto ∨ on .ndp) ∧ g = [0x01, 0x00, 0x81, 0x00, 0x01, 0x00] := by
  unfold joined
  rw [List.mem_filterMap]
  constructor
  · rintro ⟨x, hx, he⟩
    simp only [List.mem_cons, List.not_mem_nil, or_false] at hx
    have hc : (on x.1 || auto) = true := by
      cases hc : (on x.1 || auto) with
      | true => rfl
      | false => rw [hc] at he; cases he
    rw [hc, if_pos rfl] at he
    cases he
    have hc' : auto = true ∨ on x.1 = true := by
      rw [Bool.or_eq_true] at hc
      exact hc.symm
    rcases hx with rfl | rfl | rfl | rfl | rfl | rfl
    · exact .inl ⟨hc', rfl⟩
    · exact .inr (.inl ⟨hc'.imp_right .inl, rfl⟩)
    · exact .inr (.inr (.inl ⟨hc', rfl⟩))
    · exact .inr (.inr (.inr (.inl ⟨hc', rfl⟩)))
    · exact .inr (.inr (.inr (.inr ⟨hc', rfl⟩)))
    · exact .inr (.inl ⟨hc'.imp_right .inr, rfl⟩)
  · have pick : ∀ (p : Proto) (g : Bytes), (auto = true ∨ on p = true) → (if (on p || auto) = true then some g else none) = some g := by
      intro p g h
      rw [if_pos]
      rw [Bool.or_eq_true]
      exact h.symm
    rintro (⟨h, rfl⟩ | ⟨h, rfl⟩ | ⟨h, rfl⟩ | ⟨h, rfl⟩ | ⟨h, rfl⟩)
    · exact ⟨(.lldp, _), by decide, pick .lldp _ h⟩
    · by_cases h1 : auto = true ∨ on .cdp = true
      · exact ⟨(.cdp, _), by decide, pick .cdp _ h1⟩
      · exact ⟨(.cdp1, _), by decide, pick .cdp1 _ (by
          rcases h with h | h | h
          · exact absurd (.inl h) h1
          · exact absurd (.inr h) h1
          · exact .inr h)⟩
    · exact ⟨(.edp, _), by decide, pick .edp _ h⟩
    · exact ⟨(.fdp, _), by decide, pick .fdp _ h⟩
    · exact ⟨(.ndp, _), by decide, pick .ndp _ h⟩

/-- Without receiving, or in a debug run, no membership is ever requested or dropped. -/
theorem C27_send_only (c : Conf) (es : List PEvent) (he : ∀ e ∈ es, PEventOk e) (s : Parent) (h : parentRun c es {} = .ok s)
    (hl : (c.opts.has OPT_RECV && !c.opts.has OPT_DEBUG) = false) : ∀ j add g, Act.member j add g ∉ s.acts := by
  intro j add g hm
  obtain ⟨new, h1, h2, -⟩ := parentRun_acts he h
  rw [h1] at hm
  obtain ⟨e, -, -, -, h3⟩ := h2 _ (by simpa using hm)
  have := h3 j add g rfl
  unfold listens at this
  rw [hl] at this
  cases this

/-- The membership calls on closing an interface, exactly: the group of the first protocol is dropped and those of all others are requested
again.  The memberships end only because the socket is closed after that. -/
theorem C27_close_calls (c : Conf) (hl : (c.opts.has OPT_RECV && !c.opts.has OPT_DEBUG) = true) (es : List PEvent) (he : ∀ e ∈ es, PEventOk e)
    (s : Parent) (hr : parentRun c es {} = .ok s) (env : PEnv) (henv : PEnvOk env) (dg b : Bytes) (s' : Parent)
    (h : parentReq c env s dg = .ok (s', b)) (i : Nat) (payload : Bytes) (ha : Asks (dg.take 544) 1 i payload)
    (hn : (env.ifName i).isSome) (hi : i ∈ s.fds) :
    s'.acts = s.acts ++ (match joined c.enabled (c.opts.has OPT_AUTO) with
      | [] => []
      | g :: gs => .member i false g :: gs.map (.member i true)) ++ [.close i] := by
  have hd : c.opts.has OPT_DEBUG = false := by
    rw [Bool.and_eq_true, Bool.not_eq_true'] at hl
    exact hl.2
  have hinv := parentRun_pinv he (pinv_init c) hr
  rcases parentReq_cases (c := c) henv s dg with ⟨-, h1⟩ | ⟨op, i', payload', hask, h1⟩
  · rw [h1] at h; cases h
  · obtain ⟨rfl, rfl, rfl⟩ := asks_inj ha hask
    rcases h1 with ⟨h1, -⟩ | ⟨name', hn', ⟨-, h1⟩ | ⟨hsv, ⟨h0, -⟩ | ⟨s1, b1, out, new, h1, -, -, -, -, hst⟩⟩⟩
    · rw [h1] at hn; cases hn
    · rw [h1] at h; cases h
    · cases h0
    · rw [h1] at h
      cases h
      rcases hst with ⟨e1, e2, e | ⟨-, ⟨e, -⟩ | ⟨-, e⟩⟩⟩ | ⟨e, -⟩ | ⟨-, r, hr, hs⟩
      · exact absurd rfl e.2
      · cases e
      · rw [hinv.fds hd] at hi
        obtain ⟨r, hr, hri⟩ := List.mem_map.mp hi
        exact absurd hri (rfdByIndex_none.mp e r hr)
      · cases e
      · have hri := (rfdByIndex_some hr).2
        have hh := (hinv.shape r (rfdByIndex_some hr).1).1
        rw [hd, Bool.not_false] at hh
        rw [hs, parentClose_eq]
        dsimp only
        unfold closeActs
        rw [if_pos (show listens c = true from hl), if_pos hh, hri, multiLoop_drop, joined_table, List.append_assoc]
        congr 2
        cases joined c.enabled (c.opts.has OPT_AUTO) with
        | nil => rfl
        | cons g gs =>
          rw [closeCalls, List.map_cons, List.map_map]
          rfl

/-- With a single protocol enabled closing drops exactly the membership opening has requested.  Missing: with more protocols it does not
(`C27_close_rejoins`); all memberships end because the kernel drops them together with the socket (`C26_close_partial`). -/
theorem C27_symmetric_partial (c : Conf) (hl : (c.opts.has OPT_RECV && !c.opts.has OPT_DEBUG) = true) (es : List PEvent) (he : ∀ e ∈ es, PEventOk e)
    (s : Parent) (hr : parentRun c es {} = .ok s) (env : PEnv) (henv : PEnvOk env) (dg b : Bytes) (s' : Parent)
    (h : parentReq c env s dg = .ok (s', b)) (i : Nat) (payload : Bytes) (ha : Asks (dg.take 544) 1 i payload)
    (hn : (env.ifName i).isSome) (hi : i ∈ s.fds) (hone : (joined c.enabled (c.opts.has OPT_AUTO)).length ≤ 1) :
    s'.acts = s.acts ++ (joined c.enabled (c.opts.has OPT_AUTO)).map (.member i false) ++ [.close i] := by
  rw [C27_close_calls c hl es he s hr env henv dg b s' h i payload ha hn hi]
  match joined c.enabled (c.opts.has OPT_AUTO), hone with
  | [], _ => rfl
  | [g], _ => rfl

/-- With two protocols enabled closing drops the first group and requests the second once more. -/
theorem C27_close_rejoins :
    parentRun sampleConf [.req sampleEnv (ask 0 2 []), .req sampleEnv (ask 1 2 [])] {} =
      .ok { acts := opened.acts ++ [.member 2 false [0x01, 0x80, 0xc2, 0x00, 0x00, 0x0e], .member 2 true [0x01, 0x00, 0x0c, 0xcc, 0xcc, 0xcc],
        .close 2] } := by
  decide +kernel

example : joined (fun p => p == .edp) false = [[0x00, 0xe0, 0x2b, 0x00, 0x00, 0x00]] := by decide

end Ladvd.Props
