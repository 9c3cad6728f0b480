import Verif.Spec.Http
import Verif.Props.CliText
/-!
# C61 Neighbours are posted to the given URL
-/

namespace Ladvd.Props
open Ladvd Ladvd.Spec

/-! ## Encoding -/

theorem byte_cases {P : UInt8 → Prop} (h : ∀ n, n < 256 → P (UInt8.ofNat n)) (b : UInt8) : P b := by
  have := h b.toNat b.toNat_lt
  rwa [UInt8.ofNat_toNat] at this

theorem hex_back (n : Nat) (h : n < 16) : hexValue (hexUpper n) = some n := by
  revert n
  decide

theorem byte_split (b : UInt8) : UInt8.ofNat (16 * (b.toNat / 16) + b.toNat % 16) = b := by
  rw [Nat.div_add_mod, UInt8.ofNat_toNat]

theorem formValue_other {b : UInt8} (h1 : b ≠ 0x2b) (h2 : b ≠ 0x25) (r : Bytes) : formValue (b :: r) = (formValue r).map (b :: ·) := by
  rw [formValue.eq_def]
  dsimp only
  rw [if_neg h1, if_neg h2]

/-- What libevent encodes is decoded by the server. -/
theorem formValue_encode : ∀ t : Bytes, formValue (uriEncode t) = some t
  | [] => rfl
  | b :: r => by
    rw [uriEncode]
    by_cases hu : unreserved b = true
    · have h1 : b ≠ 0x2b := by rintro rfl; exact absurd hu (by decide)
      have h2 : b ≠ 0x25 := by rintro rfl; exact absurd hu (by decide)
      rw [if_pos hu, List.singleton_append, formValue_other h1 h2, formValue_encode r]
      rfl
    · rw [if_neg hu]
      show formValue (0x25 :: hexUpper (b.toNat / 16) :: hexUpper (b.toNat % 16) :: uriEncode r) = _
      have hb := b.toNat_lt
      rw [formValue, if_neg (by decide), if_pos rfl, hex_back _ (by omega), hex_back _ (by omega), formValue_encode r]
      show some (UInt8.ofNat (16 * (b.toNat / 16) + b.toNat % 16) :: r) = _
      rw [byte_split]

theorem formValue_plain : ∀ {t : Bytes}, (∀ b ∈ t, b ≠ 0x25 ∧ b ≠ 0x2b) → formValue t = some t
  | [], _ => rfl
  | b :: r, h => by
    obtain ⟨h1, h2⟩ := h b List.mem_cons_self
    rw [formValue_other h2 h1, formValue_plain (fun x hx => h x (List.mem_cons_of_mem _ hx))]
    rfl

theorem formField_eq {name v w : Bytes} (hn : ∀ b ∈ name, b ≠ 0x3d ∧ b ≠ 0x25 ∧ b ≠ 0x2b) (hv : formValue v = some w) :
    formField (name ++ 0x3d :: v) = some (name, w) := by
  have h1 : (name ++ 0x3d :: v).takeWhile (· ≠ 0x3d) = name := by
    rw [List.takeWhile_append_of_pos (fun b hb => by simpa using (hn b hb).1), List.takeWhile_cons_of_neg (by decide), List.append_nil]
  have h2 : (name ++ 0x3d :: v).dropWhile (· ≠ 0x3d) = 0x3d :: v := by
    rw [List.dropWhile_append_of_pos (fun b hb => by simpa using (hn b hb).1), List.dropWhile_cons_of_neg (by decide)]
  unfold formField
  rw [h1, h2, formValue_plain (fun b hb => (hn b hb).2)]
  show (do let value ← formValue v; pure (name, value)) = _
  rw [hv]
  rfl

theorem encode_amp : ∀ t : Bytes, ∀ b ∈ uriEncode t, b ≠ 0x26
  | [], b, h => nomatch h
  | x :: r, b, h => by
    rw [uriEncode] at h
    rcases List.mem_append.mp h with h | h
    · split at h
      · rw [List.mem_singleton] at h
        subst h
        rename_i hu
        rintro rfl
        exact absurd hu (by decide)
      · have hx := x.toNat_lt
        have hd : ∀ n, n < 16 → hexUpper n ≠ 0x26 := by decide
        rcases List.mem_cons.mp h with rfl | h
        · decide
        rcases List.mem_cons.mp h with rfl | h
        · exact hd _ (by omega)
        · rw [List.mem_singleton.mp h]; exact hd _ (by omega)
    · exact encode_amp r b h

/-! ## C61 -/

/-- Whatever a neighbour calls itself, the server reads from the request exactly what is shown about it: names arrive as they are.  Names of this host
and its interfaces are not encoded and must not need it. -/
theorem C61_form (own : Bytes) (c : CliConf) (now : Int) (es : List CliIn) (hm : ∀ e ∈ es, e.msg.length = 1518) (ho : Unencoded own)
    (hn : ∀ e ∈ es, Unencoded e.name) (l : List (List Bytes × Option Shown)) (h : clientLoop c now {} es = .ok l) :
    ∀ s ∈ l.filterMap (·.2), formFields (httpBody uriEncode own s) = some (posted own s) := by
  intro s hs
  have hrun := C43_run uriEncode own c now es hm encode_amp (fun b hb => (ho b hb).1) (fun e he b hb => (hn e he b hb).1) l h s hs
  obtain ⟨⟨⟨_, _, _, hcap, _⟩, ht, hh⟩, e, he, hname⟩ := client_safe c now es hm {} l (by simp [PeerSafe]) h s hs
  unfold formFields
  rw [hrun]
  unfold httpFields posted
  have hs1 : Unencoded s.name := by rw [hname]; exact hn e he
  have hc1 : ∀ b ∈ s.peer.cap.getD [], b ≠ 0x25 ∧ b ≠ 0x2b := by
    intro b hb
    cases hc : s.peer.cap with
    | none => rw [hc] at hb; cases hb
    | some t =>
      rw [hc] at hb
      have := hcap t hc b hb
      constructor <;> rintro rfl <;> exact absurd this (by decide)
  have hdig : ∀ n, n < 65536 → ∀ b ∈ numeral n, b ≠ 0x25 ∧ b ≠ 0x2b := by
    intro n hn b hb
    rw [← numeral16 hn] at hb
    have := decimal16_digits n b hb
    constructor <;> rintro rfl <;> exact absurd this (by decide)
  have hpr : ∀ b ∈ protocolName s.proto, b ≠ 0x25 ∧ b ≠ 0x2b := by
    rw [← protoName_eq]
    unfold protoName; split <;> decide
  have f1 := formField_eq (name := lit "hostname") (by decide) (formValue_plain (t := own) (fun b hb => (ho b hb).2))
  have f2 := formField_eq (name := lit "interface") (by decide) (formValue_plain (t := s.name) (fun b hb => (hs1 b hb).2))
  have f3 := formField_eq (name := lit "peer_hostname") (by decide) (formValue_encode (s.peer.hostname.getD []))
  have f4 := formField_eq (name := lit "peer_portname") (by decide) (formValue_encode (s.peer.portname.getD []))
  have f5 := formField_eq (name := lit "protocol") (by decide) (formValue_plain hpr)
  have f6 := formField_eq (name := lit "capabilities") (by decide) (formValue_plain hc1)
  have f7 := formField_eq (name := lit "ttl") (by decide) (formValue_plain (hdig _ ht))
  have f8 := formField_eq (name := lit "holdtime") (v := numeral s.hold ++ lit "\r\n\r\n") (by decide) (formValue_plain (by
    intro b hb
    rcases List.mem_append.mp hb with hb | hb
    · exact hdig _ hh b hb
    · revert b
      have : ∀ b ∈ lit "\r\n\r\n", b ≠ 0x25 ∧ b ≠ 0x2b := by decide
      exact fun b _ hb => this b hb))
  have g : ∀ name v : Bytes, ∀ q, q = name ++ [0x3d] → q ++ v = name ++ 0x3d :: v := by
    intro name v q hq
    rw [hq, List.append_assoc]
    rfl
  rw [← g (lit "hostname") _ (lit "hostname=") (by decide)] at f1
  rw [← g (lit "interface") _ (lit "interface=") (by decide)] at f2
  rw [← g (lit "peer_hostname") _ (lit "peer_hostname=") (by decide)] at f3
  rw [← g (lit "peer_portname") _ (lit "peer_portname=") (by decide)] at f4
  rw [← g (lit "protocol") _ (lit "protocol=") (by decide)] at f5
  rw [← g (lit "capabilities") _ (lit "capabilities=") (by decide)] at f6
  rw [← g (lit "ttl") _ (lit "ttl=") (by decide)] at f7
  rw [← g (lit "holdtime") _ (lit "holdtime=") (by decide), ← List.append_assoc] at f8
  simp only [List.mapM_cons, List.mapM_nil, f1, f2, f3, f4, f5, f6, f7, f8]
  rfl

/-- A neighbour with a name full of special characters. -/
example : formFields (httpBody uriEncode (lit "me") ⟨3, lit "eth0", 1, 180, 178, { hostname := some (lit "a&ttl=9 +%41/\"") }, []⟩) =
    some (posted (lit "me") ⟨3, lit "eth0", 1, 180, 178, { hostname := some (lit "a&ttl=9 +%41/\"") }, []⟩) := by decide +kernel

/-- Names of interfaces are not encoded: with an interface named `a&ttl=0` the server sees nine fields. -/
theorem C61_interface : ((formFields (httpBody uriEncode (lit "me") ⟨3, lit "a&ttl=0", 1, 180, 178, {}, []⟩)).getD []).map (·.1) =
    [lit "hostname", lit "interface", lit "ttl", lit "peer_hostname", lit "peer_portname", lit "protocol", lit "capabilities", lit "ttl",
     lit "holdtime"] := by decide +kernel

theorem target_of {host path : Bytes} (h1 : ∀ b ∈ host, b ≠ 0x2f) (h2 : path = [] ∨ ∃ r, path = 0x2f :: r) :
    httpTarget (lit "http://" ++ host ++ path) = (host, if path = [] then lit "/" else path) := by
  have hl : (lit "http://").length = 7 := by decide
  unfold httpTarget
  rw [List.append_assoc, List.take_left' hl, if_pos rfl, List.drop_left' hl]
  rcases h2 with rfl | ⟨r, rfl⟩
  · have : ∀ b ∈ host, b ≠ 0x2f := h1
    dsimp only
    rw [List.append_nil, if_neg (fun h => h1 _ h rfl), if_pos rfl]
    congr 1
    have := List.takeWhile_append_of_pos (p := fun b : UInt8 => decide (b ≠ 0x2f)) (l₁ := host) (l₂ := []) (fun b hb => by simpa using h1 b hb)
    simpa using this
  · have ht : (host ++ 0x2f :: r).takeWhile (· ≠ 0x2f) = host := by
      rw [List.takeWhile_append_of_pos (fun b hb => by simpa using h1 b hb), List.takeWhile_cons_of_neg (by decide), List.append_nil]
    dsimp only
    rw [ht, if_pos (List.mem_append_right _ List.mem_cons_self), List.drop_left' rfl, if_neg (by simp)]

theorem closeLast_length : ∀ rs : List HttpReq, (closeLast rs).length = rs.length
  | [] => rfl
  | [_] => rfl
  | r :: r' :: rs => by
    rw [closeLast]
    · rw [List.length_cons, closeLast_length (r' :: rs)]
      rfl
    · exact fun h => nomatch h

theorem closeLast_get : ∀ (rs : List HttpReq) (i : Nat), (closeLast rs)[i]? =
    rs[i]?.map (fun r => { r with headers := r.headers ++ if i + 1 = rs.length then [(lit "Connection", lit "close")] else [] })
  | [], i => by rfl
  | [r], i => by
    cases i with
    | zero => rfl
    | succ i => rfl
  | r :: r' :: rs, i => by
    rw [closeLast]
    · cases i with
      | zero =>
        rw [List.getElem?_cons_zero, List.getElem?_cons_zero, Option.map_some, if_neg (by simp), List.append_nil]
      | succ i =>
        rw [List.getElem?_cons_succ, List.getElem?_cons_succ, closeLast_get (r' :: rs) i]
        simp only [List.length_cons, Nat.add_right_cancel_iff]
    · exact fun h => nomatch h

theorem replies_spec (server : Nat → Option Nat) : ∀ (rs : List HttpReq) (i st : Nat), ∃ k, k ≤ rs.length ∧
    (httpReplies server i st rs).1 = rs.take k ∧
    (∀ j, j < rs.length → (j < k ↔ ∀ m, m < j → ∃ code, server (i + m) = some code ∧ code ≠ 0)) ∧
    ((httpReplies server i st rs).2 = 0 ↔ st = 0 ∧ ∀ j, j < rs.length → Answered server (i + j))
  | [], i, st => ⟨0, Nat.le_refl _, rfl, fun j hj => absurd hj (Nat.not_lt_zero _), ⟨fun h => ⟨h, fun j hj => absurd hj (Nat.not_lt_zero _)⟩, fun h => h.1⟩⟩
  | r :: rs, i, st => by
    have hbad : (∀ code, server i = some code → code = 0) → httpReplies server i st (r :: rs) = ([r], 1) := by
      intro hb
      rw [httpReplies]
      split
      · rfl
      · rename_i code hc
        rw [if_pos (hb code hc)]
    by_cases hg : ∃ code, server i = some code ∧ code ≠ 0
    · obtain ⟨code, hc, h0⟩ := hg
      have e : httpReplies server i st (r :: rs) = (r :: (httpReplies server (i + 1) (if code < 400 then st else 1) rs).1,
          (httpReplies server (i + 1) (if code < 400 then st else 1) rs).2) := by
        rw [httpReplies, hc]
        dsimp only
        rw [if_neg h0]
      obtain ⟨k, h1, h2, h3, h4⟩ := replies_spec server rs (i + 1) (if code < 400 then st else 1)
      refine ⟨k + 1, by rw [List.length_cons]; omega, by rw [e, h2]; rfl, ?_, ?_⟩
      · intro j hj
        cases j with
        | zero => exact ⟨fun _ m hm => absurd hm (Nat.not_lt_zero _), fun _ => by omega⟩
        | succ j =>
          rw [List.length_cons] at hj
          rw [Nat.add_lt_add_iff_right, h3 j (by omega)]
          constructor
          · intro h m hm
            cases m with
            | zero => exact ⟨code, hc, h0⟩
            | succ m => rw [show i + (m + 1) = i + 1 + m by omega]; exact h m (by omega)
          · intro h m hm
            rw [show i + 1 + m = i + (m + 1) by omega]
            exact h (m + 1) (by omega)
      · rw [e]
        dsimp only
        rw [h4]
        constructor
        · rintro ⟨hs, ha⟩
          split at hs
          · rename_i hlt
            refine ⟨hs, fun j hj => ?_⟩
            cases j with
            | zero => exact ⟨code, hc, Nat.pos_of_ne_zero h0, hlt⟩
            | succ j =>
              rw [List.length_cons] at hj
              rw [show i + (j + 1) = i + 1 + j by omega]
              exact ha j (by omega)
          · cases hs
        · rintro ⟨hs, ha⟩
          obtain ⟨code', hc', -, hlt⟩ := ha 0 (by rw [List.length_cons]; omega)
          rw [Nat.add_zero, hc] at hc'
          cases hc'
          rw [if_pos hlt]
          refine ⟨hs, fun j hj => ?_⟩
          rw [show i + 1 + j = i + (j + 1) by omega]
          exact ha (j + 1) (by rw [List.length_cons]; omega)
    · have hb : ∀ code, server i = some code → code = 0 := by
        intro code hc
        by_cases h : code = 0
        · exact h
        · exact absurd ⟨code, hc, h⟩ hg
      rw [hbad hb]
      refine ⟨1, by rw [List.length_cons]; omega, rfl, ?_, ?_⟩
      · intro j hj
        constructor
        · intro h m hm; omega
        · intro h
          cases j with
          | zero => omega
          | succ j => exact absurd (h 0 (by omega)) hg
      · constructor
        · intro h; cases h
        · rintro ⟨-, ha⟩
          obtain ⟨code, hc, h0, -⟩ := ha 0 (by rw [List.length_cons]; omega)
          rw [Nat.add_zero] at hc
          exact absurd (hb code hc) (by omega)

theorem run_requests (arg host path : Bytes) (ht : httpTarget arg = (host, path)) (port : Nat) (agent own : Bytes) (server : Nat → Option Nat)
    (shown : List Shown) :
    let sent := (httpRun arg port agent own server shown).1
    (∀ i (hi : i < sent.length), ∃ s, shown[i]? = some s ∧ sent[i] =
      { host := host, port := port, method := lit "POST", path := path,
        headers := [(lit "Host", host), (lit "User-Agent", agent), (lit "Content-Type", lit "application/x-www-form-urlencoded")] ++
          if i + 1 = shown.length then [(lit "Connection", lit "close")] else [],
        body := httpBody uriEncode own s }) ∧
    ∀ i, i < sent.length ↔ i < shown.length ∧ ∀ j, j < i → ∃ code, server j = some code ∧ code ≠ 0 := by
  intro sent
  obtain ⟨k, h1, h2, h3, -⟩ := replies_spec server (closeLast (shown.map (httpRequest (httpTarget arg) port agent own))) 0 0
  have hlen : (closeLast (shown.map (httpRequest (httpTarget arg) port agent own))).length = shown.length := by
    rw [closeLast_length, List.length_map]
  rw [hlen] at h1
  have hs : sent = (closeLast (shown.map (httpRequest (httpTarget arg) port agent own))).take k := h2
  have hsl : sent.length = k := by rw [hs, List.length_take, hlen]; omega
  constructor
  · intro i hi
    have hi' : i < shown.length := by omega
    refine ⟨shown[i], List.getElem?_eq_getElem hi', ?_⟩
    have e : ((closeLast (shown.map (httpRequest (httpTarget arg) port agent own))).take k)[i]? = some (sent[i]) := by
      rw [← hs]
      exact List.getElem?_eq_getElem hi
    rw [List.getElem?_take_of_lt (by omega), closeLast_get, List.getElem?_map, List.getElem?_eq_getElem hi', List.length_map] at e
    simp only [Option.map_some, Option.some.injEq] at e
    rw [← e]
    unfold httpRequest
    rw [ht]
  · intro i
    rw [hsl]
    constructor
    · intro h
      refine ⟨by omega, fun j hj => ?_⟩
      have := (h3 i (by omega)).mp h j hj
      rwa [Nat.zero_add] at this
    · rintro ⟨h, ha⟩
      exact (h3 i (by omega)).mpr (fun m hm => by rw [Nat.zero_add]; exact ha m hm)

/-- Every neighbour shown is posted, one request each and in order, to host and path of the URL, until a request remains unanswered; the connection is
closed with the last one.  Missing: a port in the URL, see `C61_port`. -/
theorem C61_target_partial (u : Url) (hu : u.Ok) (hp : u.port = none) (port : Nat) (agent own : Bytes) (server : Nat → Option Nat)
    (shown : List Shown) :
    let sent := (httpRun u.text port agent own server shown).1
    (∀ i (hi : i < sent.length), ∃ s, shown[i]? = some s ∧ sent[i] =
      { host := u.host, port := port, method := lit "POST", path := if u.path = [] then lit "/" else u.path,
        headers := [(lit "Host", u.host), (lit "User-Agent", agent), (lit "Content-Type", lit "application/x-www-form-urlencoded")] ++
          if i + 1 = shown.length then [(lit "Connection", lit "close")] else [],
        body := httpBody uriEncode own s }) ∧
    ∀ i, i < sent.length ↔ i < shown.length ∧ ∀ j, j < i → ∃ code, server j = some code ∧ code ≠ 0 := by
  refine run_requests u.text u.host _ ?_ port agent own server shown
  unfold Url.text Url.authority
  rw [hp]
  dsimp only
  rw [List.append_nil]
  exact target_of (fun b hb => (hu.1 b hb).1) hu.2

/-- A port in the URL is taken for a part of the host's name: the requests go to the default port. -/
theorem C61_port (u : Url) (hu : u.Ok) (n : Nat) (hn : n < 65536) (hp : u.port = some n) (port : Nat) (agent own : Bytes)
    (server : Nat → Option Nat) (shown : List Shown) :
    ∀ r ∈ (httpRun u.text port agent own server shown).1, r.port = port ∧ r.host = u.host ++ lit ":" ++ numeral n := by
  have ht : httpTarget u.text = (u.authority, if u.path = [] then lit "/" else u.path) := by
    unfold Url.text
    refine target_of (fun b hb => ?_) hu.2
    unfold Url.authority at hb
    rw [hp] at hb
    rcases List.mem_append.mp hb with hb | hb
    · exact (hu.1 b hb).1
    · rcases List.mem_append.mp hb with hb | hb
      · rw [show lit ":" = [0x3a] by decide, List.mem_singleton] at hb
        rw [hb]; decide
      · rw [← numeral16 hn] at hb
        rintro rfl
        exact absurd (decimal16_digits n _ hb) (by decide)
  intro r hr
  obtain ⟨i, hi, rfl⟩ := List.getElem_of_mem hr
  obtain ⟨s, -, e⟩ := (run_requests u.text _ _ ht port agent own server shown).1 i hi
  rw [e]
  refine ⟨rfl, ?_⟩
  show u.authority = _
  unfold Url.authority
  rw [hp]
  dsimp only
  rw [List.append_assoc]

/-- A URL of another scheme is not refused: `https:` is taken for the host. -/
theorem C61_https : httpTarget (lit "https://example.org/x") = (lit "https:", lit "//example.org/x") := by decide

/-- The exit status tells whether all requests were answered without an error. -/
theorem C61_exit (arg : Bytes) (port : Nat) (agent own : Bytes) (server : Nat → Option Nat) (shown : List Shown) :
    (httpRun arg port agent own server shown).2 = 0 ↔ ∀ i, i < shown.length → Answered server i := by
  obtain ⟨k, -, -, -, h4⟩ := replies_spec server (closeLast (shown.map (httpRequest (httpTarget arg) port agent own))) 0 0
  rw [closeLast_length, List.length_map] at h4
  unfold httpRun
  rw [h4]
  constructor
  · rintro ⟨-, h⟩ i hi
    have := h i hi
    rwa [Nat.zero_add] at this
  · intro h
    exact ⟨rfl, fun j hj => by rw [Nat.zero_add]; exact h j hj⟩

/-- Two neighbours posted, the second one refused. -/
example : (fun r : List HttpReq × Nat => (r.1.map (fun q => (q.host, q.path, q.headers.length)), r.2))
    (httpRun (lit "http://example.org/x") 80 (lit "ladvdc/1.1") (lit "me") (fun i => some (if i = 0 then 200 else 500))
      [⟨3, lit "eth0", 1, 180, 178, {}, []⟩, ⟨4, lit "eth1", 0, 120, 100, {}, []⟩]) =
    ([(lit "example.org", lit "/x", 3), (lit "example.org", lit "/x", 4)], 1) := by
  decide +kernel

/-- No answer to the first one. -/
example : (fun r : List HttpReq × Nat => (r.1.map (fun q => (q.host, q.path, q.headers.length)), r.2))
    (httpRun (lit "example.org") 80 (lit "ladvdc/1.1") (lit "me") (fun _ => none)
      [⟨3, lit "eth0", 1, 180, 178, {}, []⟩, ⟨4, lit "eth1", 0, 120, 100, {}, []⟩]) =
    ([(lit "example.org", lit "/", 3)], 1) := by
  decide +kernel

/-- A URL with a port meets the hypotheses of `C61_port`. -/
example : (⟨lit "example.org", some 8080, lit "/x"⟩ : Url).Ok ∧
    (httpRun (⟨lit "example.org", some 8080, lit "/x"⟩ : Url).text 80 [] [] (fun _ => some 200) [⟨3, lit "eth0", 1, 180, 178, {}, []⟩]).1.map
      (fun r => (r.host, r.port)) = [(lit "example.org:8080", 80)] := by
  refine ⟨⟨?_, .inr ⟨lit "x", by decide⟩⟩, by decide +kernel⟩
  have : ∀ b ∈ lit "example.org", b ≠ 0x2f ∧ b ≠ 0x3a := by decide
  exact this

/-- The name given for this host is its canonical name if it can be resolved to anything but `localhost`. -/
theorem C61_hostname (own : Bytes) (found : Option Bytes) (hl : ∀ n, found = some n → n.length < 255) :
    httpHostname own found = if found = none ∨ found = some (lit "localhost") then own else found.getD [] := by
  unfold httpHostname
  cases found with
  | none => rfl
  | some n =>
    dsimp only
    by_cases h : n = lit "localhost"
    · rw [if_neg (by simpa using h), if_pos (.inr (by rw [h]))]
    · rw [if_pos h, if_neg (by simpa using h), List.take_of_length_le (by have := hl n rfl; omega)]
      rfl

end Ladvd.Props
