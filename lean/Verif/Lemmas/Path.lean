import Verif.Model.Path
import Verif.Lemmas.Total
import Verif.Lemmas.Parent
import Verif.Lemmas.Queue
import Verif.Props.Filter
import Verif.Props.Decode
/-!
# Lemmas: the path of a frame
-/

namespace Ladvd

open Ladvd.Spec

/-! ## The table update always completes -/

theorem queueStore_total (o : Opts) (now : Int) (subif : Netif) (e : Entry) (st : Child) (he : Ends st.netifs) :
    ∃ st', queueStore o now subif e st = .ok st' := by
  unfold queueStore
  dsimp only
  split
  · exact childExpire_total o now _ he
  · split
    · exact ⟨_, rfl⟩
    · split
      · exact ⟨_, rfl⟩
      · exact ⟨_, rfl⟩

theorem childQueue_total (o : Opts) (now : Option Int) (r : RawMsg) (st : Child) (he : Ends st.netifs) (p : Proto)
    (hp : Proto.ofNum r.proto = some p) (hl : r.len ≤ 1518)
    (hd : p.decode false (r.msg ++ [1, 0]) r.len.toNat { proto := r.proto } = .fail ∨
      ∃ x, p.decode false (r.msg ++ [1, 0]) r.len.toNat { proto := r.proto } = .ok x) :
    ∃ st', childQueue o now r st = .ok st' := by
  unfold childQueue
  split
  · exact ⟨_, rfl⟩
  · cases now with
    | none => exact ⟨_, rfl⟩
    | some t =>
      dsimp only
      rw [hp]
      dsimp only
      rw [if_neg (by simp only [ETHER_MAX_LEN]; omega)]
      split
      · exact ⟨_, rfl⟩
      · split
        · exact ⟨_, rfl⟩
        · rcases hd with h | ⟨⟨m, n⟩, h⟩
          · rw [h]; exact ⟨_, rfl⟩
          · rw [h]
            dsimp only
            split
            · exact ⟨_, rfl⟩
            · exact queueStore_total o t _ _ st he

/-! ## The source address -/

/-- The frame with another source address. -/
def resrc (src f : Bytes) : Bytes := f.take 6 ++ src ++ f.drop 12

theorem resrc_length {src f : Bytes} (hs : src.length = 6) (hf : 12 ≤ f.length) : (resrc src f).length = f.length := by
  unfold resrc; simp [hs]; omega

theorem resrc_head {a src' src r : Bytes} (ha : a.length = 6) (hs' : src'.length = 6) : resrc src (a ++ (src' ++ r)) = a ++ (src ++ r) := by
  unfold resrc
  rw [List.take_left' ha, show a ++ (src' ++ r) = (a ++ src') ++ r by simp, List.drop_left' (by simp [ha, hs'])]
  simp

theorem llcFrame_resrc {dst org pid f payload src : Bytes} (hd : dst.length = 6) (hs : src.length = 6) (h : LlcFrame dst org pid f payload) :
    LlcFrame dst org pid (resrc src f) payload := by
  obtain ⟨pre, ⟨s, len, h6, h2, ⟨e, hn⟩ | ⟨tag, ht, e⟩⟩, rfl⟩ := h
  · refine ⟨dst ++ src ++ len ++ [0xaa, 0xaa, 0x03] ++ org ++ pid, ⟨src, len, hs, h2, .inl ⟨rfl, hn⟩⟩, ?_⟩
    rw [e]
    simp only [List.append_assoc]
    exact resrc_head hd h6
  · refine ⟨dst ++ src ++ [0x81, 0x00] ++ tag ++ len ++ [0xaa, 0xaa, 0x03] ++ org ++ pid, ⟨src, len, hs, h2, .inr ⟨tag, ht, rfl⟩⟩, ?_⟩
    rw [e]
    simp only [List.append_assoc]
    exact resrc_head hd h6

theorem lldpFrame_resrc {f payload src : Bytes} (hs : src.length = 6) (h : LldpFrame f payload) : LldpFrame (resrc src f) payload := by
  obtain ⟨pre, ⟨s, h6, e | ⟨tag, ht, e⟩⟩, rfl⟩ := h
  · refine ⟨[0x01, 0x80, 0xc2, 0x00, 0x00, 0x0e] ++ src ++ [0x88, 0xcc], ⟨src, hs, .inl rfl⟩, ?_⟩
    rw [e]
    simp only [List.append_assoc]
    exact resrc_head rfl h6
  · refine ⟨[0x01, 0x80, 0xc2, 0x00, 0x00, 0x0e] ++ src ++ [0x81, 0x00] ++ tag ++ [0x88, 0xcc], ⟨src, hs, .inr ⟨tag, ht, rfl⟩⟩, ?_⟩
    rw [e]
    simp only [List.append_assoc]
    exact resrc_head rfl h6

theorem advert_resrc {n : Nat} {f src : Bytes} (hs : src.length = 6) (h : Advert n f) : Advert n (resrc src f) := by
  unfold Advert at h ⊢
  split at h
  · obtain ⟨q, h⟩ := h; exact ⟨q, lldpFrame_resrc hs h⟩
  · obtain ⟨q, h⟩ := h; exact ⟨q, llcFrame_resrc rfl hs h⟩
  · obtain ⟨q, h⟩ := h; exact ⟨q, llcFrame_resrc rfl hs h⟩
  · obtain ⟨q, h⟩ := h; exact ⟨q, llcFrame_resrc rfl hs h⟩
  · obtain ⟨q, h⟩ := h; exact ⟨q, llcFrame_resrc rfl hs h⟩
  · obtain ⟨q, h⟩ := h; exact ⟨q, llcFrame_resrc rfl hs h⟩
  · exact h.elim

/-- What a receiver learns does not depend on the source address. -/
theorem decode_resrc {p : Proto} {f src pad : Bytes} {s s' : Msg} {n : Nat} (hs : src.length = 6) (h1 : 26 ≤ f.length) (h2 : f.length ≤ 1518)
    (hp : 2 ≤ pad.length) (h : p.decode false (f ++ pad) f.length s = .ok (s', n)) :
    p.decode false (resrc src f ++ pad) (resrc src f).length s = .ok (s', n) := by
  have hl : (resrc src f).length = f.length := resrc_length hs (by omega)
  have h1' : 26 ≤ (resrc src f).length := by omega
  have h2' : (resrc src f).length ≤ 1518 := by omega
  have cdp : cdpDecode false (f ++ pad) f.length s = .ok (s', n) → cdpDecode false (resrc src f ++ pad) (resrc src f).length s = .ok (s', n) := by
    intro h
    obtain ⟨rfl, q, hq, hm⟩ := (Props.C36_cdp false f pad s s' n h1 h2).mp h
    exact (Props.C36_cdp false _ pad s s' _ h1' h2').mpr ⟨hl.symm, q, llcFrame_resrc rfl hs hq, hm⟩
  cases p with
  | lldp =>
    obtain ⟨pdu, tr, hf, hm, rfl⟩ := (Props.C09_accept_iff false f pad s s' n (by omega) h2 hp).mp h
    exact (Props.C09_accept_iff false _ pad s s' _ (by omega) h2' hp).mpr ⟨pdu, tr, lldpFrame_resrc hs hf, hm, by rw [hl]⟩
  | cdp => exact cdp h
  | cdp1 => exact cdp h
  | edp =>
    obtain ⟨rfl, q, hq, hm⟩ := (Props.C36_edp f pad s s' n h1 h2).mp h
    exact (Props.C36_edp _ pad s s' _ h1' h2').mpr ⟨hl.symm, q, llcFrame_resrc rfl hs hq, hm⟩
  | fdp =>
    obtain ⟨rfl, q, hq, hm⟩ := (Props.C36_fdp f pad s s' n h1 h2).mp h
    exact (Props.C36_fdp _ pad s s' _ h1' h2').mpr ⟨hl.symm, q, llcFrame_resrc rfl hs hq, hm⟩
  | ndp =>
    obtain ⟨e, hdr, rest, h11, hq, rfl⟩ := (Props.C36_ndp f pad s s' n h1 h2).mp h
    exact (Props.C36_ndp _ pad s s' _ h1' h2').mpr ⟨e, hdr, rest, h11, llcFrame_resrc rfl hs hq, by rw [hl]⟩

/-! ## The message handed over -/

theorem hands_tx (t : Tx) (hi : t.index < 2 ^ 32) (hl : t.len ≤ 1518) (hm : (t.msg.take t.len).length = t.len) :
    Hands (txBytes t) t.index t.proto.num (t.msg.take t.len) := by
  refine ⟨List.replicate 16 0, List.replicate 3 0 ++ List.replicate 8 0, by simp, by simp, hi, by cases t.proto <;> decide, by omega, ?_⟩
  unfold txBytes
  rw [hm, show leBytes 1 t.proto.num = [UInt8.ofNat t.proto.num] from rfl]
  simp only [List.append_assoc]

theorem txBytes_take (t : Tx) (hl : t.len ≤ 1518) : (txBytes t).take 1558 = txBytes t := by
  apply List.take_of_length_le
  unfold txBytes
  simp only [List.length_append, leBytes_length, List.length_replicate, List.length_take]
  omega

end Ladvd
