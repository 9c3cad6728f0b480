import Verif.Props.Cli
import Verif.Props.Descr
/-!
# C42 – C44: table output, HTTP requests and options of the command line client
-/

namespace Ladvd.Props

open Spec

/-! ## C42 The table shows one line per neighbour that fits the terminal -/

theorem column_length (w : Nat) (s : Bytes) : (column w s).length = w := by
  unfold column
  rw [List.length_append, List.length_take, List.length_replicate]
  omega

theorem decimal_length (n : Nat) (h : n < 65536) : (decimal16 n).length ≤ 5 := by
  rw [decimal16_eq h]
  unfold decimal
  dsimp only
  repeat' split
  all_goals simp

theorem protoName_length (n : Nat) : (protoName n).length ≤ 7 := by
  unfold protoName
  split <;> decide

/-- On a terminal every line is exactly as wide as the terminal, or 80 columns if that is narrower, whatever the peer sent. -/
theorem C42_width (cols : Nat) (s : Shown) (hc : 0 < cols) (hh : s.hold < 65536) :
    (tableLine (cliWidths (some cols)) s).length = max 80 cols + 1 := by
  have h5 := decimal_length s.hold hh
  have e1 : (lit " ").length = 1 := by decide
  have e2 : (lit "\n").length = 1 := by decide
  have key : ∀ w : Widths, 0 < w.term → (tableLine w s).length = w.host + 50 + w.port + 1 := by
    intro w hw
    unfold tableLine
    simp only [List.length_append, column_length, List.length_replicate, e1, e2, if_pos hw]
    omega
  unfold cliWidths
  dsimp only
  split
  · split
    · rw [key _ (by show 0 < cols; omega)]; show 30 + 50 + (cols - 80) + 1 = _; omega
    · rw [key _ (by show 0 < cols; omega)]
      show 20 + (cols - 80) / 2 + 50 + (10 + (cols - 80 - (cols - 80) / 2)) + 1 = _; omega
  · rw [key _ hc]; show 20 + 50 + 10 + 1 = _; omega

/-- An 80 column terminal and a long host name. -/
example : tableLine (cliWidths (some 80)) ⟨3, lit "eth0", 1, 180, 178,
    { hostname := some (lit "switch-with-a-long-name.example.org"), portname := some (lit "GigabitEthernet1/0/17"), cap := some (lit "RS") }, []⟩ =
    lit "switch-with-a-long-n eth0          CDP     178          RS            Gi1/0/17  \n" := by decide +kernel

theorem column_eq (w : Nat) (t : Bytes) : column w t = cell w t := by
  unfold column cell
  rw [List.take_append, List.take_replicate, Nat.min_eq_left (Nat.sub_le _ _)]

theorem shortPort_nil : shortPort [] = [] := by decide

theorem tableLine_eq (w : Widths) (s : Shown) (hh : s.hold < 65536) :
    tableLine w s = ((tableCells w.host s).1.flatMap (· ++ lit " ")) ++
      (if w.term > 0 then cell w.port (tableCells w.host s).2 else (tableCells w.host s).2) ++ lit "\n" := by
  have e1 : strOr (s.peer.hostname.map (fun h => if h.length > w.host then h.takeWhile (· ≠ 0x2e) else h)) =
      shortHost w.host (s.peer.hostname.getD []) := by
    unfold strOr shortHost
    cases s.peer.hostname with
    | none => simp
    | some h =>
      simp only [Option.map_some, Option.getD_some]
      by_cases hl : h.length > w.host
      · rw [if_pos hl, if_neg (by omega)]
      · rw [if_neg hl, if_pos (by omega)]
  have e2 : ∀ o : Option Bytes, o = s.peer.portname.or s.peer.portdescr → strOr (o.map portnameAbbr) =
      shortPort ((s.peer.portname.or s.peer.portdescr).getD []) := by
    rintro o rfl
    unfold strOr
    cases s.peer.portname.or s.peer.portdescr with
    | some p => simp [C31_abbr]
    | none => simp [shortPort_nil]
  have e3 : decimal16 s.hold ++ List.replicate (12 - (decimal16 s.hold).length) 0x20 = cell 12 (numeral s.hold) := by
    have := decimal_length s.hold hh
    rw [numeral16 hh] at this ⊢
    rw [← column_eq, column, List.take_of_length_le (by omega)]
  unfold tableLine
  dsimp only
  rw [e1, e3, protoName_eq, e2 _ (by cases s.peer.portname <;> rfl)]
  unfold tableCells strOr
  simp only [column_eq, List.flatMap_cons, List.flatMap_nil, List.append_nil, List.append_assoc]

/-- On a terminal a line consists of six columns of fixed width: the neighbour's host name, which loses its domain if it does not fit; the
local interface; the protocol; the seconds left; the capabilities; and the port, or else the port's description, with the media word
shortened.  The widths of the first and last column grow with the terminal. -/
theorem C42_columns (cols : Nat) (s : Shown) (hc : 0 < cols) (hh : s.hold < 65536) :
    tableLine (cliWidths (some cols)) s = ((tableCells (hostWidth cols) s).1.flatMap (· ++ lit " ")) ++
      cell (max 80 cols - 50 - hostWidth cols) (tableCells (hostWidth cols) s).2 ++ lit "\n" := by
  have ht : (cliWidths (some cols)).term = cols := by
    unfold cliWidths; dsimp only; repeat' split
    all_goals rfl
  have hw : (cliWidths (some cols)).host = hostWidth cols ∧ (cliWidths (some cols)).port = max 80 cols - 50 - hostWidth cols := by
    unfold cliWidths hostWidth
    dsimp only
    split
    · split
      · dsimp only; omega
      · dsimp only; omega
    · dsimp only; omega
  rw [tableLine_eq _ s hh, hw.1, hw.2, ht, if_pos hc]

/-- Without a terminal the columns are as wide as on 80 columns and the port is not cut. -/
theorem C42_piped (s : Shown) (hh : s.hold < 65536) :
    tableLine (cliWidths none) s = ((tableCells 20 s).1.flatMap (· ++ lit " ")) ++ (tableCells 20 s).2 ++ lit "\n" := by
  rw [tableLine_eq _ s hh]
  rfl

/-- The columns of a wide terminal. -/
example : hostWidth 132 = 30 ∧ hostWidth 90 = 25 ∧ hostWidth 40 = 20 ∧
    (tableCells 20 ⟨3, lit "eth0", 5, 180, 7, { hostname := some (lit "a-rather-long-name.example.org"), portdescr := some (lit "Ethernet 7") }, []⟩) =
      ([lit "a-rather-long-name  ", lit "eth0         ", lit "CDP1   ", lit "7           ", lit "             "], lit "Eth 7") := by
  decide +kernel

theorem count_zero_of {t : Bytes} (h : ∀ b ∈ t, b ≠ 0x0a) : t.count 0x0a = 0 :=
  List.count_eq_zero.mpr (fun hm => h _ hm rfl)

theorem column_mem {w : Nat} {s : Bytes} (h : ∀ b ∈ s, b ≠ 0x0a) : ∀ b ∈ column w s, b ≠ 0x0a := by
  intro b hb
  unfold column at hb
  rcases List.mem_append.mp hb with hb | hb
  · exact h b (List.mem_of_mem_take hb)
  · rw [(List.mem_replicate.mp hb).2]; decide

theorem abbr_mem (s : Bytes) : ∀ b ∈ portnameAbbr s, b ∈ s := by
  obtain ⟨_, a, x, c, h1, h2, _⟩ := C31_shortens s
  rw [h2, h1]
  intro b hb
  rcases List.mem_append.mp hb with hb | hb
  · simp [hb]
  · simp [hb]

/-- The texts of a peer contain no line end. -/
def OneLine (p : Peer) : Prop :=
  (∀ t ∈ p.hostname, ∀ b ∈ t, b ≠ 0x0a) ∧ (∀ t ∈ p.portname, ∀ b ∈ t, b ≠ 0x0a) ∧ (∀ t ∈ p.portdescr, ∀ b ∈ t, b ≠ 0x0a)

/-- A neighbour whose texts contain no line ends is one line of the table: the only line end is the last byte.  Missing for the full
statement: peers that put line ends in their texts (see `C42_injected`), which LLDP and CDP texts are not cleaned of. -/
theorem C42_one_line_partial (w : Widths) (s : Shown) (hn : ∀ b ∈ s.name, b ≠ 0x0a) (hp : PeerSafe s.peer) (ho : OneLine s.peer) :
    ∃ t, tableLine w s = t ++ [0x0a] ∧ lineEnds t = 0 := by
  obtain ⟨h1, h2, h3⟩ := ho
  obtain ⟨_, _, _, hcap, _⟩ := hp
  have hsp : ∀ b ∈ lit " ", b ≠ 0x0a := by decide
  have hcap' : ∀ b ∈ strOr s.peer.cap, b ≠ 0x0a := by
    refine strOr_all (fun t ht b hb => ?_)
    rintro rfl
    exact absurd (hcap t ht _ hb) (by decide)
  have hdig : ∀ n, ∀ b ∈ decimal16 n, b ≠ 0x0a := by
    rintro n b hb rfl
    exact absurd (decimal16_digits n _ hb).1 (by decide)
  have hproto : ∀ b ∈ protoName s.proto, b ≠ 0x0a := by
    unfold protoName; split <;> decide
  have hhost : ∀ b ∈ strOr (s.peer.hostname.map (fun h => if h.length > w.host then h.takeWhile (· ≠ 0x2e) else h)), b ≠ 0x0a := by
    refine strOr_all (fun t ht b hb => ?_)
    obtain ⟨x, hx, rfl⟩ := Option.map_eq_some_iff.mp ht
    split at hb
    · exact h1 x hx b ((List.takeWhile_sublist _).subset hb)
    · exact h1 x hx b hb
  have hport : ∀ b ∈ strOr ((match s.peer.portname with | some p => some p | none => s.peer.portdescr).map portnameAbbr), b ≠ 0x0a := by
    refine strOr_all (fun t ht b hb => ?_)
    obtain ⟨x, hx, rfl⟩ := Option.map_eq_some_iff.mp ht
    have := abbr_mem x b hb
    split at hx
    · next p hp => cases hx; exact h2 x hp b this
    · exact h3 x hx b this
  have hpad : ∀ k, ∀ b ∈ List.replicate k (0x20 : UInt8), b ≠ 0x0a := by
    intro k b hb
    rw [(List.mem_replicate.mp hb).2]; decide
  have happ : ∀ a b : Bytes, (∀ x ∈ a, x ≠ 0x0a) → (∀ x ∈ b, x ≠ 0x0a) → ∀ x ∈ a ++ b, x ≠ 0x0a := by
    intro a b ha hb x hx
    rcases List.mem_append.mp hx with hx | hx
    · exact ha x hx
    · exact hb x hx
  unfold tableLine
  refine ⟨_, rfl, count_zero_of ?_⟩
  have hlast : ∀ b ∈ (if w.term > 0 then column w.port (strOr ((match s.peer.portname with | some p => some p | none => s.peer.portdescr).map portnameAbbr))
      else strOr ((match s.peer.portname with | some p => some p | none => s.peer.portdescr).map portnameAbbr)), b ≠ 0x0a := by
    split
    · exact column_mem hport
    · exact hport
  exact happ _ _ (happ _ _ (happ _ _ (happ _ _ (happ _ _ (happ _ _ (happ _ _ (happ _ _ (happ _ _ (happ _ _ (column_mem hhost) hsp)
    (column_mem hn)) hsp) (column_mem hproto)) hsp) (happ _ _ (hdig _) (hpad _))) hsp) (column_mem hcap')) hsp) hlast

/-- A name with a quote, but no line end. -/
example : PeerSafe { hostname := some (lit "sw\"1") } ∧ OneLine { hostname := some (lit "sw\"1") } ∧
    lineEnds (tableLine (cliWidths none) ⟨3, lit "eth0", 1, 180, 178, { hostname := some (lit "sw\"1") }, []⟩) = 1 := by
  have h : ∀ b ∈ lit "sw\"1", (0x20 ≤ b ∧ b ≤ 0x7e) ∧ b ≠ 0x0a := by decide +kernel
  refine ⟨⟨?_, (nofun), (nofun), (nofun), (nofun)⟩, ⟨?_, (nofun), (nofun)⟩, by decide +kernel⟩
  · rintro _ ⟨rfl⟩ b hb
    exact Or.inl (h b hb).1
  · rintro _ ⟨rfl⟩ b hb
    exact (h b hb).2

/-- EDP, FDP and NDP neighbours always satisfy this: the texts learnt from any accepted frame contain no line ends. -/
theorem C42_glob (p : Proto) (hp : p = .edp ∨ p = .fdp ∨ p = .ndp) (f pad : Bytes) (m : Msg) (n proto : Nat) (h1 : 26 ≤ f.length)
    (h2 : f.length ≤ 1518) (h : p.decode false (f ++ pad) f.length { proto := proto } = .ok (m, n)) : OneLine m.peer := by
  have hglob : ∀ v : Bytes, ∀ b ∈ shownGlob v, b ≠ 0x0a := by
    intro v b hb
    have := C12_value_safe v
    rw [tlvValueStrVal_eq] at this
    rintro rfl
    exact absurd (this _ hb).1 (by decide)
  have hfirst : ∀ {o : Option Bytes} {v : Bytes}, (∀ t ∈ o, ∀ b ∈ t, b ≠ 0x0a) → ∀ t ∈ first o (shownGlob v), ∀ b ∈ t, b ≠ 0x0a :=
    fun h => first_safe (P := fun t => ∀ b ∈ t, b ≠ 0x0a) h (hglob _)
  have h0 : OneLine ({} : Peer) := by simp [OneLine]
  rcases hp with rfl | rfl | rfl
  · obtain ⟨_, pl, _, hdr, ts, _, _, _, rfl⟩ := (C36_edp f pad _ m n h1 h2).mp h
    refine foldl_inv (P := fun s : Msg => OneLine s.peer) ?_ ts h0
    intro s t ⟨a, b, c⟩
    unfold edpMeaning
    split
    · exact ⟨hfirst a, b, c⟩
    · exact ⟨a, b, c⟩
  · obtain ⟨_, pl, _, ttl, k0, k1, ts, _, _, rfl⟩ := (C36_fdp f pad _ m n h1 h2).mp h
    refine foldl_inv (P := fun s : Msg => OneLine s.peer) ?_ ts h0
    intro s t ⟨a, b, c⟩
    unfold fdpMeaning
    split
    · exact ⟨hfirst a, b, c⟩
    · exact ⟨a, hfirst b, c⟩
    · exact ⟨a, b, c⟩
    · exact ⟨a, b, c⟩
  · obtain ⟨rfl, _⟩ := (C36_ndp f pad _ m n h1 h2).mp h
    exact h0

/-- An FDP frame with a line end in the name of the device, which is displayed as `\\012`. -/
example : Proto.fdp.decode false ([0x01, 0xe0, 0x52, 0xcc, 0xcc, 0xcc, 2, 0, 0, 0, 0, 1, 0, 60, 0xaa, 0xaa, 3, 0, 0xe0, 0x52,
      0x20, 0] ++ [1, 20, 0, 0] ++ cdpEnc [(1, [0x73, 0x0a, 0x77]), (4, lit "Router")]) 43 { proto := 3 } =
    .ok ({ proto := 3, ttl := 20, peer := { hostname := some (lit "s\\012w"), cap := some (lit "R") } }, 43) := by decide +kernel

/-- The claim fails for CDP (and LLDP): a host name with a line end adds a line to the table. -/
theorem C42_injected : ∃ l, clientLoop { protos := 255 } 2 {} [cdpEntry 0x0a 180] = .ok l ∧
    (l.filterMap (·.2)).length = 1 ∧ ((l.filterMap (·.2)).map (fun s => lineEnds (tableLine (cliWidths (some 80)) s))) = [2] := by
  refine ⟨(match clientLoop { protos := 255 } 2 {} [cdpEntry 0x0a 180] with | .ok l => l | _ => []), ?_, ?_, ?_⟩
  · decide +kernel
  · decide +kernel
  · decide +kernel

/-! ## C43 Fields of the HTTP request cannot be forged by a peer -/

theorem split_none {d : UInt8} (t : Bytes) (h : ∀ b ∈ t, b ≠ d) : splitAtByte d t = [t] := by
  induction t with
  | nil => rfl
  | cons b t ih =>
    rw [splitAtByte, if_neg (h b List.mem_cons_self), ih (fun x hx => h x (List.mem_cons_of_mem _ hx))]

theorem split_append {d : UInt8} (t r : Bytes) (h : ∀ b ∈ t, b ≠ d) : splitAtByte d (t ++ d :: r) = t :: splitAtByte d r := by
  induction t with
  | nil => rw [List.nil_append, splitAtByte, if_pos rfl]
  | cons b t ih =>
    rw [List.cons_append, splitAtByte, if_neg (h b List.mem_cons_self), ih (fun x hx => h x (List.mem_cons_of_mem _ hx))]

/-- Whatever the peer sent, the body of the request consists of the eight fields with the values of the displayed neighbour.  `enc` is the
percent encoding of libevent, of which only the absence of `&` in its result is used; names of this host and of its interfaces are assumed
to contain none either. -/
theorem C43_fields (enc : Bytes → Bytes) (host : Bytes) (s : Shown) (henc : ∀ t, ∀ b ∈ enc t, b ≠ 0x26) (hhost : ∀ b ∈ host, b ≠ 0x26)
    (hname : ∀ b ∈ s.name, b ≠ 0x26) (hp : PeerSafe s.peer) (ht : s.ttl < 65536) (hh : s.hold < 65536) :
    splitAtByte 0x26 (httpBody enc host s) = httpFields enc host s := by
  unfold httpFields
  rw [← numeral16 ht, ← numeral16 hh, ← protoName_eq]
  obtain ⟨_, _, _, hcap, _⟩ := hp
  have hcap' : ∀ b ∈ strOr s.peer.cap, b ≠ 0x26 := by
    refine strOr_all (fun t ht b hb => ?_)
    rintro rfl
    exact absurd (hcap t ht _ hb) (by decide)
  have hdig : ∀ n, ∀ b ∈ decimal16 n, b ≠ 0x26 := by
    rintro n b hb rfl
    exact absurd (decimal16_digits n _ hb).1 (by decide)
  have hproto : ∀ b ∈ protoName s.proto, b ≠ 0x26 := by
    unfold protoName; split <;> decide
  have happ : ∀ a b : Bytes, (∀ x ∈ a, x ≠ 0x26) → (∀ x ∈ b, x ≠ 0x26) → ∀ x ∈ a ++ b, x ≠ 0x26 := by
    intro a b ha hb x hx
    rcases List.mem_append.mp hx with hx | hx
    · exact ha x hx
    · exact hb x hx
  have e : httpBody enc host s = (lit "hostname=" ++ host) ++ 0x26 :: ((lit "interface=" ++ s.name) ++ 0x26 ::
      ((lit "peer_hostname=" ++ enc (strOr s.peer.hostname)) ++ 0x26 :: ((lit "peer_portname=" ++ enc (strOr s.peer.portname)) ++ 0x26 ::
      ((lit "protocol=" ++ protoName s.proto) ++ 0x26 :: ((lit "capabilities=" ++ strOr s.peer.cap) ++ 0x26 ::
      ((lit "ttl=" ++ decimal16 s.ttl) ++ 0x26 :: (lit "holdtime=" ++ decimal16 s.hold ++ lit "\r\n\r\n"))))))) := by
    unfold httpBody
    have e1 : lit "&interface=" = 0x26 :: lit "interface=" := by decide
    have e2 : lit "&peer_hostname=" = 0x26 :: lit "peer_hostname=" := by decide
    have e3 : lit "&peer_portname=" = 0x26 :: lit "peer_portname=" := by decide
    have e4 : lit "&protocol=" = 0x26 :: lit "protocol=" := by decide
    have e5 : lit "&capabilities=" = 0x26 :: lit "capabilities=" := by decide
    have e6 : lit "&ttl=" = 0x26 :: lit "ttl=" := by decide
    have e7 : lit "&holdtime=" = 0x26 :: lit "holdtime=" := by decide
    rw [e1, e2, e3, e4, e5, e6, e7]
    simp only [List.append_assoc, List.cons_append]
  rw [e, split_append _ _ (happ _ _ (by decide) hhost), split_append _ _ (happ _ _ (by decide) hname),
    split_append _ _ (happ _ _ (by decide) (henc _)), split_append _ _ (happ _ _ (by decide) (henc _)),
    split_append _ _ (happ _ _ (by decide) hproto), split_append _ _ (happ _ _ (by decide) hcap'),
    split_append _ _ (happ _ _ (by decide) (hdig _)),
    split_none _ (happ _ _ (happ _ _ (by decide) (hdig _)) (by decide))]
  rfl

/-- The same for whole runs: all neighbours displayed by any run qualify. -/
theorem C43_run (enc : Bytes → Bytes) (host : Bytes) (c : CliConf) (now : Int) (es : List CliIn) (hm : ∀ e ∈ es, e.msg.length = 1518)
    (henc : ∀ t, ∀ b ∈ enc t, b ≠ 0x26) (hhost : ∀ b ∈ host, b ≠ 0x26) (hn : ∀ e ∈ es, ∀ b ∈ e.name, b ≠ 0x26)
    (l : List (List Bytes × Option Shown)) (h : clientLoop c now {} es = .ok l) :
    ∀ s ∈ l.filterMap (·.2), splitAtByte 0x26 (httpBody enc host s) = httpFields enc host s := by
  intro s hs
  obtain ⟨a, e, he, b⟩ := client_safe c now es hm {} l (by simp [PeerSafe]) h s hs
  exact C43_fields enc host s henc hhost (by rw [b]; exact hn e he) a.1 a.2.1 a.2.2

/-- A peer named `a&ttl=9`, with an encoding that escapes everything. -/
example : (splitAtByte 0x26 (httpBody (fun t => t.flatMap (fun b => [0x25, hexDigit (b.toNat / 16), hexDigit (b.toNat % 16)])) (lit "me")
    ⟨3, lit "eth0", 1, 180, 178, { hostname := some (lit "a&ttl=9") }, []⟩)).length = 8 := by decide +kernel

/-! ## C44 Options of the client select what they say -/

/-- The letters that choose an output mode. -/
def modeOf (ch : Char) : Option CliMode :=
  if ch = 'b' then some .batch else if ch = 'd' then some .debug else if ch = 'f' then some .print else if ch = 'p' then some .http else none

/-- Bit of a protocol letter. -/
def protoBit (ch : Char) : Option Nat :=
  if ch = 'L' then some 0 else if ch = 'C' then some 1 else if ch = 'E' then some 2 else if ch = 'F' then some 3
  else if ch = 'N' then some 4 else none

/-- What one option does. -/
theorem cliOpt_spec {c c' : CliConf} {ch : Char} (h : cliOpt c ch = some c') :
    ch ∈ ['L', 'C', 'E', 'F', 'N', 'b', 'd', 'f', 'p', 'o', 'v'] ∧
    (∀ k, c'.protos.testBit k = (c.protos.testBit k || (protoBit ch == some k))) ∧
    c'.mode = (modeOf ch).getD c.mode ∧ c'.once = (c.once || ch == 'o') ∧ c'.host = (c.host || ch == 'p') ∧
    (ch = 'p' → c.host = false) ∧ c'.indexes = c.indexes := by
  have hbit : ∀ (p i k : Nat), (p ||| 2 ^ i).testBit k = (p.testBit k || (some i == some k)) := by
    intro p i k
    rw [Nat.testBit_or, Nat.testBit_two_pow]
    by_cases hk : i = k <;> simp [hk]
  have hnone : ∀ (p k : Nat), p.testBit k = (p.testBit k || (none == some k)) := by
    intro p k
    have : ((none : Option Nat) == some k) = false := rfl
    rw [this, Bool.or_false]
  unfold cliOpt at h
  split at h
  · next hc => subst hc; cases h; exact ⟨by decide, fun k => hbit _ 0 k, rfl, by simp, by simp, (fun h => absurd h (by decide)), rfl⟩
  split at h
  · next hc => subst hc; cases h; exact ⟨by decide, fun k => hbit _ 1 k, rfl, by simp, by simp, (fun h => absurd h (by decide)), rfl⟩
  split at h
  · next hc => subst hc; cases h; exact ⟨by decide, fun k => hbit _ 2 k, rfl, by simp, by simp, (fun h => absurd h (by decide)), rfl⟩
  split at h
  · next hc => subst hc; cases h; exact ⟨by decide, fun k => hbit _ 3 k, rfl, by simp, by simp, (fun h => absurd h (by decide)), rfl⟩
  split at h
  · next hc => subst hc; cases h; exact ⟨by decide, fun k => hbit _ 4 k, rfl, by simp, by simp, (fun h => absurd h (by decide)), rfl⟩
  split at h
  · next hc => subst hc; cases h; exact ⟨by decide, fun k => hnone _ k, rfl, by simp, by simp, (fun h => absurd h (by decide)), rfl⟩
  split at h
  · next hc => subst hc; cases h; exact ⟨by decide, fun k => hnone _ k, rfl, by simp, by simp, (fun h => absurd h (by decide)), rfl⟩
  split at h
  · next hc => subst hc; cases h; exact ⟨by decide, fun k => hnone _ k, rfl, by simp, by simp, (fun h => absurd h (by decide)), rfl⟩
  split at h
  · next hc =>
    subst hc
    split at h
    · cases h
    · next hh => cases h; exact ⟨by decide, fun k => hnone _ k, rfl, by simp, by simp, fun _ => by simpa using hh, rfl⟩
  split at h
  · next hc => subst hc; cases h; exact ⟨by decide, fun k => hnone _ k, rfl, by simp, by simp, (fun h => absurd h (by decide)), rfl⟩
  split at h
  · next hc => subst hc; cases h; exact ⟨by decide, fun k => hnone _ k, rfl, by simp, by simp, (fun h => absurd h (by decide)), rfl⟩
  · cases h

theorem cliOpt_some {c : CliConf} {ch : Char} (h : ch ∈ ['L', 'C', 'E', 'F', 'N', 'b', 'd', 'f', 'p', 'o', 'v'])
    (hp : ch = 'p' → c.host = false) : ∃ c', cliOpt c ch = some c' := by
  simp only [List.mem_cons, List.not_mem_nil, or_false] at h
  rcases h with rfl | rfl | rfl | rfl | rfl | rfl | rfl | rfl | rfl | rfl | rfl
  all_goals first
    | exact ⟨_, rfl⟩
    | (refine ⟨{ c with mode := .http, host := true }, ?_⟩
       have : c.host = false := hp rfl
       show (if c.host = true then none else _) = _
       rw [if_neg (by rw [this]; decide)])

theorem cliOpts_fold (opts : List Char) : ∀ (c c' : CliConf), opts.foldlM cliOpt c = some c' →
    (∀ ch ∈ opts, ch ∈ ['L', 'C', 'E', 'F', 'N', 'b', 'd', 'f', 'p', 'o', 'v']) ∧
    (∀ k, c'.protos.testBit k = (c.protos.testBit k || opts.any (fun ch => protoBit ch == some k))) ∧
    c'.mode = ((opts.filterMap modeOf).getLast?).getD c.mode ∧ c'.once = (c.once || opts.contains 'o') ∧
    (opts.count 'p' + c.host.toNat ≤ 1) ∧ c'.indexes = c.indexes := by
  induction opts with
  | nil => intro c c' h; cases h; exact ⟨(fun _ h => by cases h), by simp, rfl, by simp, by cases c.host <;> decide, rfl⟩
  | cons ch opts ih =>
    intro c c' h
    rw [List.foldlM_cons] at h
    cases hc : cliOpt c ch with
    | none => rw [hc] at h; cases h
    | some c1 =>
      rw [hc] at h
      obtain ⟨a1, a2, a3, a4, a5, a6, a7⟩ := cliOpt_spec hc
      obtain ⟨b1, b2, b3, b4, b5, b6⟩ := ih c1 c' h
      refine ⟨?_, ?_, ?_, ?_, ?_, b6.trans a7⟩
      · intro x hx
        rcases List.mem_cons.mp hx with rfl | hx
        · exact a1
        · exact b1 x hx
      · intro k; rw [b2, a2, List.any_cons, Bool.or_assoc]
      · rw [b3, a3]
        cases hm : modeOf ch with
        | none => rw [List.filterMap_cons_none hm]; rfl
        | some m =>
          rw [List.filterMap_cons_some hm, List.getLast?_cons]
          cases (opts.filterMap modeOf).getLast? <;> rfl
      · rw [b4, a4, List.contains_cons, Bool.or_assoc, Bool.beq_comm (a := ch)]
      · rw [List.count_cons]
        rw [a5] at b5
        by_cases hp : ch = 'p'
        · have := a6 hp
          rw [this] at b5 ⊢
          simp [hp] at b5 ⊢
          omega
        · have : (ch == 'p') = false := by simpa using hp
          rw [this] at b5 ⊢
          simpa using b5

theorem cliArgs_spec (args : List (Option Nat)) : ∀ l, cliArgs args = some l ↔ args = l.map some := by
  induction args with
  | nil => intro l; cases l <;> simp [cliArgs]
  | cons a args ih =>
    intro l
    cases a with
    | none => cases l <;> simp [cliArgs]
    | some i =>
      cases l with
      | nil => simp [cliArgs]
      | cons j l =>
        simp only [cliArgs, Option.map_eq_some_iff, ih, List.cons.injEq, List.map_cons, Option.some.injEq]
        constructor
        · rintro ⟨a, h1, h2, h3⟩; subst h3; exact ⟨h2, h1⟩
        · rintro ⟨h1, h2⟩; exact ⟨l, h2, h1, rfl⟩

/-- Option processing succeeds only on the documented letters, with `-p` at most once and known interfaces; a protocol is displayed iff its
letter was given or no protocol letter was, the last mode letter wins, and interfaces are restricted iff any was named. -/
theorem C44_options (opts : List Char) (args : List (Option Nat)) (c : CliConf) (h : cliOptions opts args = some c) :
    (∀ ch ∈ opts, ch ∈ ['L', 'C', 'E', 'F', 'N', 'b', 'd', 'f', 'p', 'o', 'v']) ∧ opts.count 'p' ≤ 1 ∧
    (∀ k, k < 6 → (c.protos.testBit k = true ↔ (∃ ch ∈ opts, protoBit ch = some k) ∨ ∀ ch ∈ opts, protoBit ch = none)) ∧
    c.mode = ((opts.filterMap modeOf).getLast?).getD .table ∧ (c.once = true ↔ 'o' ∈ opts) ∧
    (args = [] → c.indexes = none) ∧ (args ≠ [] → ∃ l, c.indexes = some l ∧ args = l.map some) := by
  unfold cliOptions at h
  cases hf : opts.foldlM cliOpt {} with
  | none => rw [hf] at h; cases h
  | some c1 =>
    rw [hf] at h
    obtain ⟨b1, b2, b3, b4, b5, b6⟩ := cliOpts_fold opts {} c1 hf
    have b2' : ∀ k, c1.protos.testBit k = opts.any (fun ch => protoBit ch == some k) := by
      intro k; rw [b2]; show (Nat.testBit 0 k || _) = _; rw [Nat.zero_testBit, Bool.false_or]
    -- the selected protocols after the default
    have hsel : ∀ k, k < 6 → ((if c1.protos = 0 then { c1 with protos := 255 } else c1).protos.testBit k = true ↔
        (∃ ch ∈ opts, protoBit ch = some k) ∨ ∀ ch ∈ opts, protoBit ch = none) := by
      intro k hk
      by_cases h0 : c1.protos = 0
      · rw [if_pos h0]
        have hall : ∀ ch ∈ opts, protoBit ch = none := by
          intro ch hch
          cases hb : protoBit ch with
          | none => rfl
          | some j =>
            have := b2' j
            rw [h0, Nat.zero_testBit] at this
            have h2 := List.any_eq_false.mp this.symm ch hch
            rw [hb] at h2; simp at h2
        have : (255 : Nat).testBit k = true := by
          have : ∀ k : Fin 6, (255 : Nat).testBit k.val = true := by decide
          exact this ⟨k, hk⟩
        exact ⟨fun _ => Or.inr hall, fun _ => this⟩
      · rw [if_neg h0, b2', List.any_eq_true]
        constructor
        · rintro ⟨ch, hch, he⟩; exact Or.inl ⟨ch, hch, by simpa using he⟩
        · rintro (⟨ch, hch, he⟩ | hall)
          · exact ⟨ch, hch, by simpa using he⟩
          · exfalso
            apply h0
            apply Nat.eq_of_testBit_eq
            intro j
            rw [b2', Nat.zero_testBit]
            exact List.any_eq_false.mpr (fun ch hch => by rw [hall ch hch]; simp)
    have hrest : (if c1.protos = 0 then { c1 with protos := 255 } else c1).mode = c1.mode ∧
        (if c1.protos = 0 then { c1 with protos := 255 } else c1).once = c1.once ∧
        (if c1.protos = 0 then { c1 with protos := 255 } else c1).indexes = none := by
      split <;> exact ⟨rfl, rfl, b6⟩
    generalize hg : (if c1.protos = 0 then { c1 with protos := 255 } else c1) = c2 at hsel hrest
    have h' : (if args = [] then some c2 else (cliArgs args).bind (fun ix => some { c2 with indexes := some ix })) = some c := by
      rw [← hg]; exact h
    have b5' : opts.count 'p' ≤ 1 := by simpa using b5
    have honce : c2.once = true ↔ 'o' ∈ opts := by
      rw [hrest.2.1, b4]; simp
    split at h'
    · next ha =>
      cases h'
      exact ⟨b1, b5', hsel, hrest.1.trans b3, honce, fun _ => hrest.2.2, fun hn => absurd ha hn⟩
    · next ha =>
      cases hl : cliArgs args with
      | none => rw [hl] at h'; cases h'
      | some l =>
        rw [hl] at h'
        cases h'
        exact ⟨b1, b5', hsel, hrest.1.trans b3, honce, fun h => absurd h ha, fun _ => ⟨l, rfl, (cliArgs_spec args l).mp hl⟩⟩

example : cliOptions ['L', 'C', 'o', 'b'] [some 3] =
    some { protos := 3, indexes := some [3], mode := .batch, once := true } := by decide

theorem cliOpts_some (opts : List Char) : ∀ c : CliConf, (∀ ch ∈ opts, ch ∈ ['L', 'C', 'E', 'F', 'N', 'b', 'd', 'f', 'p', 'o', 'v']) →
    opts.count 'p' + c.host.toNat ≤ 1 → ∃ c', opts.foldlM cliOpt c = some c' := by
  induction opts with
  | nil => intro c _ _; exact ⟨c, rfl⟩
  | cons ch opts ih =>
    intro c hall hp
    rw [List.count_cons] at hp
    obtain ⟨c1, hc⟩ := cliOpt_some (c := c) (hall ch List.mem_cons_self) (by
      rintro rfl
      cases hh : c.host with
      | false => rfl
      | true => rw [hh] at hp; simp at hp)
    obtain ⟨_, _, _, _, a5, _, _⟩ := cliOpt_spec hc
    obtain ⟨c', h⟩ := ih c1 (fun x hx => hall x (List.mem_cons_of_mem _ hx)) (by
      rw [a5]
      by_cases hch : ch = 'p'
      · subst hch
        simp at hp ⊢
        omega
      · have : (ch == 'p') = false := by simpa using hch
        rw [this] at hp ⊢
        simpa using hp)
    exact ⟨c', by rw [List.foldlM_cons, hc]; exact h⟩

/-- Such a command line is always accepted. -/
theorem C44_accepted (opts : List Char) (l : List Nat)
    (h : ∀ ch ∈ opts, ch ∈ ['L', 'C', 'E', 'F', 'N', 'b', 'd', 'f', 'p', 'o', 'v']) (hp : opts.count 'p' ≤ 1) :
    ∃ c, cliOptions opts (l.map some) = some c := by
  obtain ⟨c1, hc⟩ := cliOpts_some opts {} h (by simpa using hp)
  unfold cliOptions
  rw [hc]
  cases l with
  | nil => exact ⟨_, rfl⟩
  | cons i l =>
    have := (cliArgs_spec ((i :: l).map some) (i :: l)).mpr rfl
    refine ⟨{ (if c1.protos = 0 then { c1 with protos := 255 } else c1) with indexes := some (i :: l) }, ?_⟩
    simp only [Option.bind_eq_bind, Option.bind_some, Option.pure_def, this]
    rw [if_neg (by simp)]

/-- The URL of `-p` is accepted once only, an unknown letter not at all, nor is an unknown interface. -/
example : (cliOptions ['p', 'E', 'v', 'N', 'o'] [some 3, some 4]).isSome ∧ cliOptions ['p', 'p'] [] = none ∧ cliOptions ['x'] [] = none ∧
    cliOptions ['L'] [some 3, none] = none := by decide

/-- A version 1 CDP frame, as stored by the daemon. -/
def cdp1Entry : CliIn :=
  { cdpEntry 0x31 180 with proto := 5, msg := (cdpEntry 0x31 180).msg.take 22 ++ [1] ++ (cdpEntry 0x31 180).msg.drop 23 }

/-- `-C` does not select everything heard over CDP: neighbours speaking version 1 are kept under a protocol number of their own and are left out. -/
theorem C44_cdp1 : cliOptions ['C'] [] = some { protos := 2 } ∧ (∃ pay, CdpFrame (cdp1Entry.msg.take 62) pay) ∧
    peersShown (clientLoop { protos := 2 } 2 {} [cdp1Entry]) = [] ∧
    peersShown (clientLoop { protos := 255 } 2 {} [cdp1Entry]) = [{ hostname := some (lit "sw1"), portname := some (List.replicate 25 0x65) }] := by
  refine ⟨by decide, ⟨(cdp1Entry.msg.take 62).drop 22, (cdp1Entry.msg.take 62).take 22, ?_, by decide +kernel⟩, by decide +kernel, by decide +kernel⟩
  exact ⟨[2, 0, 0, 0, 0, 7], [0, 48], rfl, rfl, Or.inl ⟨by decide +kernel, by decide⟩⟩

end Ladvd.Props
