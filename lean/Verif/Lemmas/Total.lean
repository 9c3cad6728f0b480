import Verif.Lemmas.Run
import Verif.Props.Packet
/-!
# The loops of a round come to an end
-/

namespace Ladvd

open Spec

/-! ## Ports depend only on the shape of the list -/

theorem subifIter_shape (l : List Netif) (cur : Option Netif) (n : Netif) :
    subifIter (l.map shape) (cur.map shape) (shape n) = (subifIter l cur n).map shape := by
  have hb : ∀ x : Option Nat, x.bind (netifByIndex (l.map shape)) = (x.bind (netifByIndex l)).map shape := by
    intro x
    cases x with
    | none => rfl
    | some i => exact byIndex_map l shape (fun _ => rfl) i
  cases cur with
  | none =>
    show (if n.type > NETIF_PARENT then n.subif.bind (netifByIndex (l.map shape))
      else if n.type < NETIF_REGULAR then none else some (shape n)) =
      (if n.type > NETIF_PARENT then n.subif.bind (netifByIndex l)
      else if n.type < NETIF_REGULAR then none else some n).map shape
    rw [hb]
    split
    · rfl
    · split <;> rfl
  | some s =>
    show (if s.index = n.index then none else s.subif.bind (netifByIndex (l.map shape))) =
      (if s.index = n.index then none else s.subif.bind (netifByIndex l)).map shape
    rw [hb]
    split <;> rfl

theorem subifLoop_shape (l : List Netif) (n : Netif) : ∀ (fuel : Nat) (cur : Option Netif),
    subifLoop (l.map shape) (shape n) fuel (cur.map shape) =
      (subifLoop l n fuel cur).bind (fun ps => .ok (ps.map shape)) := by
  intro fuel
  induction fuel with
  | zero => intro cur; rfl
  | succ fuel ih =>
    intro cur
    simp only [subifLoop, subifIter_shape]
    cases h : subifIter l cur n with
    | none => rfl
    | some s =>
      have := ih (some s)
      simp only [Option.map_some, Res.bind_eq, Res.pure_eq] at this ⊢
      rw [this]
      cases subifLoop l n fuel (some s) <;> rfl

theorem portIdx_shape (l : List Netif) (n : Netif) : portIdx (l.map shape) (shape n) = portIdx l n := by
  unfold portIdx ports
  rw [List.length_map]
  have := subifLoop_shape l n (l.length + 2) none
  rw [Option.map_none] at this
  rw [this]
  cases subifLoop l n (l.length + 2) none with
  | ok a =>
    simp only [Res.bind_ok, List.map_map]
    rfl
  | fail => rfl
  | oob => rfl
  | abort => rfl
  | stuck => rfl

/-- The traversal of the ports of every interface ends. -/
def Ends (l : List Netif) : Prop := ∀ n ∈ l, ∃ ps, portIdx l n = .ok ps

theorem Ends.ports {l : List Netif} (h : Ends l) {n : Netif} (hn : n ∈ l) : ∃ ps, ports l n = .ok ps := by
  obtain ⟨ps, hp⟩ := h n hn
  unfold portIdx at hp
  cases e : Ladvd.ports l n with
  | ok ps => exact ⟨ps, rfl⟩
  | fail => rw [e] at hp; cases hp
  | oob => rw [e] at hp; cases hp
  | abort => rw [e] at hp; cases hp
  | stuck => rw [e] at hp; cases hp

theorem Ends.shape {l l' : List Netif} (h : Ends l) (hs : l'.map shape = l.map shape) : Ends l' := by
  intro n hn
  obtain ⟨x, hx, e⟩ := mem_shape hs hn
  obtain ⟨ps, hp⟩ := h x hx
  exact ⟨ps, by rw [← portIdx_shape, hs, ← e, portIdx_shape]; exact hp⟩

theorem Ends.static {l l' : List Netif} (h : Ends l) (hs : l'.map static = l.map static) : Ends l' :=
  h.shape (map_shape_of_static hs)

/-! ## The update loop -/

theorem updateNetifs_total (o : Opts) (is : List Nat) : ∀ (st : Child), Ends st.netifs → ∃ st', updateNetifs o is st = .ok st' := by
  induction is with
  | nil => intro st _; exact ⟨st, rfl⟩
  | cons i is ih =>
    intro st he
    rw [updateNetifs]
    cases e : netifByIndex st.netifs i with
    | none => exact ih st he
    | some subif =>
      dsimp only
      by_cases hu : subif.update = 0
      · rw [if_pos hu]; exact ih st he
      · rw [if_neg hu]
        simp only [Res.bind_eq, Res.pure_eq]
        have key : ∀ st1 : Child, st1.netifs.map shape = st.netifs.map shape →
            ∃ st', updateNetifs o is { (if o.has OPT_IFDESCR = true then
                { st1 with out := st1.out ++ (netifDescr o subif st1.queue).toList } else st1) with
              netifs := setNetif (if o.has OPT_IFDESCR = true then
                { st1 with out := st1.out ++ (netifDescr o subif st1.queue).toList } else st1).netifs i
                (fun n => { n with update := 0 }) } = .ok st' := by
          intro st1 hs1
          apply ih
          dsimp only
          have hnet : (if o.has OPT_IFDESCR = true then
                { st1 with out := st1.out ++ (netifDescr o subif st1.queue).toList } else st1).netifs = st1.netifs := by
            split <;> rfl
          rw [hnet]
          exact he.shape ((setNetif_shape _ _ _ (by intro n; rfl)).trans hs1)
        by_cases ha : o.has OPT_AUTO = true
        · rw [if_pos ha]
          obtain ⟨ps, hps⟩ := he.ports (parentOf_attached (byIndex_mem e)).1
          have : ∃ v, netifProtos st.netifs (parentOf st.netifs subif) st.queue = .ok v := by
            unfold netifProtos
            rw [hps]
            exact ⟨_, rfl⟩
          obtain ⟨v, hv⟩ := this
          rw [hv]
          simp only [Res.bind_ok]
          exact key { st with netifs := setNetif st.netifs (parentOf st.netifs subif).index (fun n => { n with protos := v }) }
            (setNetif_shape _ _ _ (by intro n; rfl))
        · rw [if_neg ha]
          simp only [Res.bind_ok]
          exact key st rfl

theorem childExpire_total (o : Opts) (now : Int) (st : Child) (he : Ends st.netifs) : ∃ st', childExpire o now st = .ok st' := by
  unfold childExpire
  dsimp only
  apply updateNetifs_total
  dsimp only
  refine he.shape ?_
  rw [List.map_map]
  apply List.map_congr_left
  intro n _
  simp only [Function.comp_apply]
  split <;> rfl

/-! ## Building -/

theorem build_total (p : Proto) (mem : Bytes) (e : PktEnv) (seq : Nat) (h : EnvOk e) (hm : 1518 ≤ mem.length) :
    p.build mem e seq = .fail ∨ ∃ r, p.build mem e seq = .ok r := by
  cases p with
  | cdp =>
    show cdpPacket false mem e = _ ∨ _
    rw [show Proto.cdp.build mem e seq = cdpPacket false mem e from rfl, cdpPacket_eq _ _ _ h hm]
    split
    · exact Or.inr ⟨_, rfl⟩
    · exact Or.inl rfl
  | cdp1 =>
    rw [show Proto.cdp1.build mem e seq = cdpPacket true mem e from rfl, cdpPacket_eq _ _ _ h hm]
    split
    · exact Or.inr ⟨_, rfl⟩
    · exact Or.inl rfl
  | fdp =>
    rw [show Proto.fdp.build mem e seq = fdpPacket mem e from rfl, fdpPacket_eq _ _ h hm]
    split
    · exact Or.inr ⟨_, rfl⟩
    · exact Or.inl rfl
  | edp =>
    rw [show Proto.edp.build mem e seq = edpPacket mem e seq from rfl, edpPacket_eq _ _ _ h hm]
    split
    · exact Or.inr ⟨_, rfl⟩
    · exact Or.inl rfl
  | ndp => exact Or.inr ⟨_, by show ndpPacket mem e = _; rw [ndpPacket_eq _ _ h hm]⟩
  | lldp =>
    rw [show Proto.lldp.build mem e seq = lldpPacket mem e from rfl, lldpPacket_eq _ _ h hm]
    split
    · exact Or.inr ⟨_, rfl⟩
    · exact Or.inl rfl

/-! ## A round -/

/-- Everything the builders use fits its fields. -/
def DaemonOk (d : Daemon) : Prop := (∀ n ∈ d.child.netifs, NetifOk n) ∧ SysOk d.sys

theorem netifOk_static {a b : Netif} (h : static a = static b) (ha : NetifOk a) (hm : b.mtu < 65536) : NetifOk b := by
  have h1 : a.index = b.index := congrArg (·.index) h
  have h2 : a.name = b.name := congrArg (·.name) h
  have h3 : a.description = b.description := congrArg (·.description) h
  have h4 : a.deviceName = b.deviceName := congrArg (·.deviceName) h
  have h5 : a.hwaddr = b.hwaddr := congrArg (·.hwaddr) h
  have h6 : a.ipaddr4 = b.ipaddr4 := congrArg (·.ipaddr4) h
  have h7 : a.ipaddr6 = b.ipaddr6 := congrArg (·.ipaddr6) h
  have h8 : a.vlanId = b.vlanId := congrArg (·.vlanId) h
  unfold NetifOk at ha ⊢
  rw [h1, h2, h3, h4, h5, h6, h7, h8] at ha
  exact ⟨ha.1, ha.2.1, ha.2.2.1, ha.2.2.2.1, ha.2.2.2.2.1, ha.2.2.2.2.2.1, ha.2.2.2.2.2.2.1, ha.2.2.2.2.2.2.2.1, hm,
    ha.2.2.2.2.2.2.2.2.2⟩

theorem DaemonOk.sent {d d1 : Daemon} {a : List Tx} (h : DaemonOk d) (hs : Sent d d1 a) : DaemonOk d1 := by
  refine ⟨?_, ?_⟩
  · intro n hn
    have hm : static n ∈ d1.child.netifs.map static := List.mem_map_of_mem hn
    rw [hs.same] at hm
    obtain ⟨x, hx, e⟩ := List.mem_map.mp hm
    exact netifOk_static e (h.1 x hx) (hs.mtu (fun n hn => (h.1 n hn).2.2.2.2.2.2.2.2.1) n hn)
  · have : d1.sys = d.sys := congrArg (fun x => x.2.1) hs.rest
    rw [this]; exact h.2

theorem DaemonOk.env {c : Conf} {d : Daemon} (h : DaemonOk d) {s : Netif} (hs : NetifOk s) : EnvOk (pktEnv c d s) := by
  have hb : ∀ x : Option Nat, ∀ p ∈ x.bind (netifByIndex d.child.netifs), NetifOk p := by
    intro x p hp
    cases x with
    | none => cases hp
    | some i => exact h.1 p (byIndex_mem (Option.mem_def.mp hp))
  exact ⟨hs, hb _, hb _, h.1, h.2⟩

theorem sendOne_total {c : Conf} {n s : Netif} {d : Daemon} (h : EnvOk (pktEnv c d s)) (p : Proto) :
    ∃ d', sendOne c n s d p = .ok d' := by
  unfold sendOne
  split
  · exact ⟨_, rfl⟩
  · dsimp only
    rcases build_total p (List.replicate ETHER_MAX_LEN 0) (pktEnv c d s) d.seq h
      (by rw [List.length_replicate]; decide) with h | ⟨⟨msg, len⟩, h⟩
    · rw [h]; exact ⟨_, rfl⟩
    · rw [h]
      dsimp only
      split
      · exact ⟨_, rfl⟩
      · exact ⟨_, rfl⟩

theorem sendOne_env {c : Conf} {n s : Netif} {d d' : Daemon} {p : Proto} (h : sendOne c n s d p = .ok d') (x : Netif) :
    pktEnv c d' x = pktEnv c d x := by
  obtain ⟨new, e, -⟩ := sendOne_ok h
  rw [e]
  rfl

theorem sendAll_total {c : Conf} {n s : Netif} (ps : List Proto) : ∀ {d : Daemon}, EnvOk (pktEnv c d s) →
    ∃ d', sendAll c n s ps d = .ok d' := by
  induction ps with
  | nil => intro d _; exact ⟨d, rfl⟩
  | cons p ps ih =>
    intro d h
    obtain ⟨d1, h1⟩ := sendOne_total (n := n) h p
    rw [sendAll, h1]
    simp only [Res.bind_ok]
    exact ih (by rw [sendOne_env h1]; exact h)

theorem sendPort_total {c : Conf} {m : Netif → Netif} (hm : MediaFun m) {link : Option Nat} {n : Netif} {d : Daemon} {i : Nat} (h : DaemonOk d) :
    ∃ d', sendPort c m link n d i = .ok d' := by
  unfold sendPort
  split
  · exact ⟨_, rfl⟩
  · dsimp only
    have h1 : DaemonOk (d.set i (countLink link)) :=
      h.sent (Sent.set d i (countLink link) (fun _ => rfl) (fun _ h => h))
    generalize d.set i (countLink link) = d1 at h1
    cases e : netifByIndex d1.child.netifs i with
    | none => exact ⟨_, rfl⟩
    | some subif =>
      dsimp only
      split
      · exact ⟨_, rfl⟩
      · have h2 : DaemonOk (if (c.opts.has OPT_RECV && subif.protos == 0) = true then { d1 with opened := d1.opened ++ [i] } else d1) := by
          split
          · exact h1
          · exact h1
        generalize (if (c.opts.has OPT_RECV && subif.protos == 0) = true then { d1 with opened := d1.opened ++ [i] } else d1) = d2 at h2
        have h3 : DaemonOk (d2.set i m) :=
          h2.sent (Sent.set d2 i m (hm.static) (hm.mtu))
        split
        · exact ⟨_, rfl⟩
        · have hsub := h1.1 subif (byIndex_mem e)
          have hmed : NetifOk (m subif) :=
            netifOk_static (hm.static subif).symm hsub (hm.mtu subif hsub.2.2.2.2.2.2.2.2.1)
          exact sendAll_total _ (h3.env hmed)

theorem sendPorts_total {c : Conf} {m : Netif → Netif} (hm : MediaFun m) {link : Option Nat} {n : Netif} (hk : sendSkip c n = false) (is : List Nat) :
    ∀ {d : Daemon}, DaemonOk d → (∃ x ∈ d.child.netifs, static x = static n) →
    (∃ ps, portIdx d.child.netifs n = .ok ps ∧ ∀ i ∈ is, i ∈ ps) → ∃ d', sendPorts c m link n is d = .ok d' := by
  induction is with
  | nil => intro d _ _ _; exact ⟨d, rfl⟩
  | cons i is ih =>
    intro d h hn ⟨ps, hps, hin⟩
    obtain ⟨d1, h1⟩ := sendPort_total hm (c := c) (m := m) (link := link) (n := n) (i := i) h
    rw [sendPorts, h1]
    simp only [Res.bind_ok]
    obtain ⟨new, hs, -⟩ := sendPort_ok hm hn ⟨ps, hps, hin i List.mem_cons_self⟩ hk h1
    refine ih (h.sent hs) ?_ ⟨ps, ?_, fun j hj => hin j (List.mem_cons_of_mem _ hj)⟩
    · obtain ⟨x, hx, e⟩ := hn
      have : static x ∈ d.child.netifs.map static := List.mem_map_of_mem hx
      rw [← hs.same] at this
      obtain ⟨y, hy, e'⟩ := List.mem_map.mp this
      exact ⟨y, hy, e'.trans e⟩
    · rw [← portIdx_static, hs.same, portIdx_static]; exact hps

theorem sendNetifs_total {c : Conf} {m : Netif → Netif} (hm : MediaFun m) {link : Option Nat} (is : List Nat) :
    ∀ {d : Daemon}, DaemonOk d → Ends d.child.netifs → ∃ d', sendNetifs c m link is d = .ok d' := by
  induction is with
  | nil => intro d _ _; exact ⟨d, rfl⟩
  | cons i is ih =>
    intro d h he
    rw [sendNetifs]
    cases e : netifByIndex d.child.netifs i with
    | none => exact ih h he
    | some n =>
      dsimp only
      by_cases hk : sendSkip c n = true
      · rw [if_pos hk]; exact ih h he
      · rw [if_neg hk]
        have hk : sendSkip c n = false := by simpa using hk
        have hn := byIndex_mem e
        obtain ⟨ps, hps⟩ := he.ports hn
        have hidx : portIdx d.child.netifs n = .ok (ps.map (·.index)) := by
          unfold portIdx; rw [hps]; rfl
        rw [hps]
        simp only [Res.bind_ok]
        obtain ⟨d1, h1⟩ := sendPorts_total (m := m) hm (link := link) hk (ps.map (·.index)) h ⟨n, hn, rfl⟩
          ⟨_, hidx, fun _ hi => hi⟩
        rw [h1]
        simp only [Res.bind_ok]
        obtain ⟨new, hs, -⟩ := sendPorts_ok hm hk _ ⟨n, hn, rfl⟩ ⟨_, hidx, fun _ hi => hi⟩ h1
        exact ih (h.sent hs) (he.static hs.same)

theorem sendRound_total {c : Conf} {k : Kernel} {m : Media} {link : Option Nat} {d : Daemon}
    (h : DaemonOk (daemonFetch c k d).1) (he : Ends (daemonFetch c k d).1.child.netifs) :
    ∃ d', sendRound c k m link d = .ok d' := by
  unfold sendRound
  split
  · exact ⟨_, rfl⟩
  · dsimp only
    split
    · exact ⟨_, rfl⟩
    · split
      · exact ⟨_, rfl⟩
      · exact sendNetifs_total (mediaFun _) _ h he

/-- With few VLANs everything is built. -/
theorem allBuild {c : Conf} {d : Daemon} (h : DaemonOk d) (hv : (d.child.netifs.filter (fun n => n.type = -1)).length ≤ 10)
    (ht : 9 ≤ d.sys.hostname.length + d.sys.utsStr.length + d.sys.platform.length) : AllBuild c d := by
  intro d1 a s hs hsm p seq
  have h1 := h.sent hs
  have henv := h1.env (c := c) (h1.1 s hsm)
  have hsys : d1.sys = d.sys := congrArg (fun x => x.2.1) hs.rest
  have hlen : (vlansOf (pktEnv c d1 s)).length ≤ 10 := by
    have hc : (d1.child.netifs.filter (fun n => n.type = -1)).length = (d.child.netifs.filter (fun n => n.type = -1)).length := by
      have : ∀ l : List Netif, (l.filter (fun n => n.type = -1)).length = ((l.map static).filter (fun n => n.type = -1)).length := by
        intro l
        rw [List.filter_map, List.length_map]
        rfl
      rw [this, hs.same, ← this]
    have hle : (vlansOf (pktEnv c d1 s)).length ≤ (d1.child.netifs.filter (fun n => n.type = -1)).length := by
      unfold vlansOf
      rw [← List.countP_eq_length_filter, ← List.countP_eq_length_filter]
      apply List.countP_mono_left
      intro x _ hx
      have := of_decide_eq_true hx
      exact decide_eq_true this.2.1
    omega
  obtain ⟨r, hr⟩ := Props.C06_fits p (List.replicate ETHER_MAX_LEN 0) (pktEnv c d1 s) seq henv
    (by rw [List.length_replicate]; decide) (by cases p <;> first | trivial | (dsimp only; omega))
  refine ⟨r, hr, ?_⟩
  rcases Props.C06_built p (pktEnv c d1 s) seq henv (by
      show 9 ≤ d1.sys.hostname.length + d1.sys.utsStr.length + d1.sys.platform.length
      rw [hsys]; exact ht) with hf | ⟨f, h60, -, hb, -⟩
  · rw [hf _ (by rw [List.length_replicate]; decide)] at hr
    cases hr
  · have := hb (List.replicate ETHER_MAX_LEN 0) (by rw [List.length_replicate]; decide)
    unfold Props.Builds at this
    rw [this] at hr
    injection hr with hr
    rw [← hr]
    dsimp only
    omega

end Ladvd
