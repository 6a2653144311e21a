import Verif.Model.ALAC.Track
import Verif.Props.ALAC.Codec
import Verif.Proof.Files.CafPackets
/-! The codec's configuration and packets, as the track uses them. -/
namespace AF.ALAC
open AF AF.Files

theorem magicCookie_length (h : Endian) (n d ch : Nat) (rate : Int) :
    (magicCookie h n d ch rate).length = if ch > 2 then 48 else 24 := by
  unfold magicCookie
  split
  · simp only [List.length_append, fieldBytes_length, List.length_replicate, List.length_cons, List.length_nil]
    rfl
  · simp only [List.length_append, fieldBytes_length, List.length_cons, List.length_nil]
    rfl

/-- The decoder gets the encoder's configuration. -/
theorem initDecoder_cookie (h h' : Endian) {n d ch : Nat} (rate : Int) (hd : Depth d) (hn : n < 2 ^ 32) :
    initDecoder h' (magicCookie h n d ch rate) = .ok (some (configOf n d)) := by
  have hlen := magicCookie_length h n d ch rate
  have hge : 24 ≤ (magicCookie h n d ch rate).length ∧ (magicCookie h n d ch rate).length ≤ 48 := by rw [hlen]; split <;> omega
  obtain ⟨tail, ht⟩ : ∃ tail, magicCookie h n d ch rate = fieldBytes h .big .s4 n ++ ([0, BitVec.ofNat 8 d, 40, 10, 14] ++ tail) := by
    unfold magicCookie
    refine ⟨[BitVec.ofNat 8 ch] ++ (fieldBytes h .big .s2 255 ++ (fieldBytes h .big .s4 0 ++ (fieldBytes h .big .s4 0 ++ (fieldBytes h .big .s4 rate ++
      (if ch > 2 then [0, 0, 0, 24] ++ tag "chan" ++ [0, 0, 0, 0] ++ fieldBytes h .big .s4 (layoutTag ch) ++
    List.replicate 8 0 else []))))), ?_⟩
    simp only [List.append_assoc]
    rfl
  have hf : (fieldBytes h .big .s4 (n : Int)).length = 4 := by rw [fieldBytes_length, b4]
  have hr : readField h' .big .s4 (fieldBytes h .big .s4 (n : Int)) = some (BitVec.ofInt _ (n : Int), []) := by
    have := readField_writeField h' .big .s4 (BitVec.ofInt _ (n : Int)) []
    rw [List.append_nil, writeField_eq, ← writeField_eq h] at this
    exact this
  have hnat : (BitVec.ofInt (8 * FieldSize.s4.bytes) (n : Int)).toNat = n := by
    show (BitVec.ofInt 32 (n : Int)).toNat = n
    rw [BitVec.toNat_ofInt]
    omega
  generalize magicCookie h n d ch rate = c at *
  generalize fieldBytes h .big .s4 (n : Int) = a at *
  match a, hf with
  | [a0, a1, a2, a3], _ =>
    have hw : wrapU 32 (c.length : Int) = c.length := wrapU_id (by omega) (by omega)
    have e1 : isAtom "frma" c = false ∧ isAtom "alac" c = false ∧ (c.getD 5 0).toNat = d := by
      rw [ht]
      rcases hd with rfl | rfl | rfl | rfl <;> exact ⟨by simp [isAtom]; decide, by simp [isAtom]; decide, rfl⟩
    have e3 : c.take 4 = [a0, a1, a2, a3] := by rw [ht]; rfl
    have e4 : c.getD 4 0 = 0 ∧ c.getD 6 0 = 40 ∧ c.getD 7 0 = 10 ∧ c.getD 8 0 = 14 := by rw [ht]; exact ⟨rfl, rfl, rfl, rfl⟩
    unfold initDecoder
    simp only [bind, Except.bind, hw]
    rw [if_neg (by omega)]
    rw [e1.1]
    simp only [Bool.false_eq_true, if_false]
    rw [if_neg (by omega)]
    rw [e1.2.1]
    simp only [Bool.false_eq_true, if_false]
    rw [if_neg (by omega), if_neg (by omega)]
    rw [e4.1, if_neg (by decide), e3, hr, e1.2.2, e4.2.1, e4.2.2.1, e4.2.2.2]
    simp only [Option.map_some, Option.getD_some, hnat]
    rfl

/-- A frame of the given depth and number of channels. -/
def Frame (d ch : Nat) (a : List Int) : Prop := a.length = ch ∧ ∀ x ∈ a, InRange d x

theorem getD_at {β : Type} {l : List β} {i : Nat} {x : β} (h : i < l.length) : l.getD i x = l[i] := by
  rw [List.getD_eq_getElem?_getD, List.getElem?_eq_getElem h, Option.getD_some]

theorem bufOf_range {d ch : Nat} {fs : List (List Int)} (hG : ∀ a ∈ fs, Frame d ch a) (k : Nat) (hk : k < fs.length * ch) :
    InRange d (bufOf ch fs k) := by
  have hch : 0 < ch := Nat.pos_of_ne_zero (by rintro rfl; simp at hk)
  have h1 : k / ch < fs.length := (Nat.div_lt_iff_lt_mul hch).2 hk
  obtain ⟨hl, hx⟩ := hG _ (List.getElem_mem h1)
  have h2 : k % ch < (fs[k / ch]).length := by rw [hl]; exact Nat.mod_lt _ hch
  unfold bufOf
  rw [getD_at h1, getD_at h2]
  exact hx _ (List.getElem_mem h2)

theorem framesIn_kept {d ch : Nat} (hch : 0 < ch) {fs : List (List Int)} (hG : ∀ a ∈ fs, Frame d ch a) (out : Nat → Int) :
    framesIn ch fs.length (fun k => if k / ch < fs.length then kept d (bufOf ch fs k) else out k) =
      fs.map fun a => a.map (kept d) := by
  unfold framesIn
  apply List.ext_getElem
  · simp
  · intro i h1 h2
    rw [List.length_map, List.length_range] at h1
    obtain ⟨hl, -⟩ := hG _ (List.getElem_mem h1)
    rw [List.getElem_map, List.getElem_map, List.getElem_range]
    apply List.ext_getElem
    · simp [hl]
    · intro j g1 g2
      rw [List.length_map, List.length_range] at g1
      rw [List.getElem_map, List.getElem_map, List.getElem_range]
      have e1 : (i * ch + j) / ch = i := by
        rw [Nat.mul_comm, Nat.mul_add_div hch, Nat.div_eq_of_lt g1]; omega
      have e2 : (i * ch + j) % ch = j := by rw [Nat.mul_comm, Nat.mul_add_mod]; exact Nat.mod_eq_of_lt g1
      show (if (i * ch + j) / ch < fs.length then kept d (bufOf ch fs (i * ch + j)) else out (i * ch + j)) = _
      rw [e1, if_pos h1]
      unfold bufOf
      rw [e1, e2, getD_at h1, getD_at (by omega)]

/-- One packet through the module. -/
theorem packet_track {d ch : Nat} (hd : Depth d) (h1 : 1 ≤ ch) (h8 : ch ≤ 8) {choice : Nat → Nat → Choice} (hc : ∀ i j, (choice i j).OK)
    (m : Nat → Mem) (i : Nat) {fs : List (List Int)} (hl : fs.length ≤ 4096) (hG : ∀ a ∈ fs, Frame d ch a) :
    ∃ bs, encodePacket d 4096 ch choice m i fs = some bs ∧ 1 ≤ bs.length ∧ bs.length ≤ bufferSize 4096 ch d ∧
      ∀ rest old, decodePacket (some (configOf 4096 d)) 4096 ch rest old i bs = .ok (fs.map fun a => a.map (kept d)) := by
  obtain ⟨m', size, e, hs1, -, r⟩ := packet_ok (fs := 4096) hd h1 h8 (hc i) (bufOf_range hG) (by omega) hl (by omega) (m i)
  obtain ⟨m2, size2, e2, hs2⟩ := C56_packet_fits (frameSize := 4096) hd h1 h8 (hc i) (bufOf_range hG) hl (by omega) (by omega) (m i)
  rw [e] at e2
  injection e2 with e2
  injection e2 with _ e2
  subst e2
  refine ⟨(List.range size).map m', ?_, by simpa using hs1, by unfold bufferSize; simpa using hs2, ?_⟩
  · unfold encodePacket
    rw [e]
  · intro rest old
    unfold decodePacket
    simp only [List.length_map, List.length_range]
    rw [r _ (old i) ?_]
    · dsimp only
      rw [framesIn_kept (by omega) hG]
    · intro p _ hp
      unfold bitAt
      dsimp only
      have : p / 8 < size := by omega
      rw [if_pos this, List.getD_eq_getElem?_getD, List.getElem?_eq_getElem (by simpa using this)]
      simp

end AF.ALAC
