import Verif.Spec.Opens
import Verif.Proof.Foreign
import Verif.Props.Program
/-!
# From a header that is read to a file that plays
-/
namespace AF.Foreign
open AF AF.Setup AF.Files AF.Convert AF.Spec AF.Spec.Files AF.Spec.Formats AF.Spec.Setup AF.Spec.Foreign AF.Spec.Program AF.Spec.SfConvert

theorem piece_order {f g : AFmt} (hs : g.sampleFormat = f.sampleFormat) {b : List Byte} (hb : b.length ≤ 1) : sampleOf g b = sampleOf f b := by
  have hu : ∀ e, uintOf e b = ofLE b := by
    intro e
    cases e
    · rfl
    · match b, hb with
      | [], _ => rfl
      | [x], _ => rfl
  unfold sampleOf
  rw [hs, hu, hu]

theorem frameSamples_same {f g : AFmt} (hc : g.compression = f.compression) (hcd : f.compression = NONE ∨ f.compression = ULAW ∨ f.compression = ALAW)
    (hs : f.compression = NONE → g.sampleFormat = f.sampleFormat ∧ g.sampleWidth = f.sampleWidth ∧ (8 < f.sampleWidth → g.byteOrder = f.byteOrder))
    (hl : f.compression = NONE → 1 ≤ f.sampleWidth) (p : List Byte) : frameSamples g p = frameSamples f p := by
  unfold frameSamples
  rw [hc]
  by_cases h1 : f.compression = ULAW
  · rw [if_pos h1, if_pos h1]
  rw [if_neg h1, if_neg h1]
  by_cases h2 : f.compression = ALAW
  · rw [if_pos h2, if_pos h2]
  rw [if_neg h2, if_neg h2]
  have hz : f.compression = NONE := by
    rcases hcd with a | a | a
    · exact a
    · exact absurd a h1
    · exact absurd a h2
  obtain ⟨e1, e2, e3⟩ := hs hz
  rw [e2]
  by_cases h8 : 8 < f.sampleWidth
  · have : sampleOf g = sampleOf f := by
      funext b
      unfold sampleOf orderOf
      rw [e1, e3 h8]
    rw [this]
  · have hB : ((f.sampleWidth + 7) / 8).toNat = 1 := by have := hl hz; omega
    rw [hB]
    refine List.map_congr_left fun b hb => piece_order e1 ?_
    obtain ⟨i, -, rfl⟩ := List.mem_map.1 hb
    rw [List.length_take]
    omega

/-- A file that is recognised and whose header is read right opens and plays. -/
theorem opens_of' {F32 : Files.Float32} {F64 : Files.Float64} {rnd : Rat → Dbl} {fuel : Nat} {file : List Byte} {u : FileFormat}
    {rate : Rat} {channels : Nat} {order : Int} {k : Kind} {sound : List Byte} {n : Nat} (hk : Kind.Good k) (hch : 1 ≤ channels)
    (hsig : HasSignature file u)
    (hrd : ∀ h, ∃ t p, readInit F32 F64 rnd h fuel u file 0 = .ok (t, p) ∧ SameSound (described rate channels order k) sound n file t ∧
      (u = .nist → k.compression ≠ NONE → t.f.byteOrder = native h)) :
    Opens F32 F64 rnd fuel file (described rate channels order k) sound n := by
  intro h fm
  obtain ⟨t, p, hr, hs, hu⟩ := hrd h
  have hcd : (described rate channels order k).compression = NONE ∨ (described rate channels order k).compression = ULAW ∨
      (described rate channels order k).compression = ALAW := by
    rcases hk.2 with a | ⟨-, -, a⟩
    · exact .inl a
    · exact .inr a
  obtain ⟨ho, hl, hm⟩ := Program.openRead_same F32 F64 rnd h fuel (identify_of hsig 0) hr hs hcd hu
  refine ⟨t, p, ho, hs, fun hn => ?_⟩
  generalize hF : described rate channels order k = F at *
  have hFch : F.channels = channels := by rw [← hF]; rfl
  have hFw : F.compression = NONE → 1 ≤ F.sampleWidth := by
    intro _
    have := hk.1
    rw [← hF]
    show (1 : Int) ≤ (k.width : Int)
    unfold LegalWidth at this
    omega
  have hbpf : bytesPerFrame t.f = bytesPerFrame F := by
    unfold bytesPerFrame
    rw [hs.compression, hs.channels]
    by_cases hz : F.compression = NONE
    · rw [if_pos hz, if_pos hz, (hs.sample hz).2.1]
    · rw [if_neg hz, if_neg hz]
  have hau := hs.audio
  have hds := hs.size
  have hf1 := hs.first
  unfold audio at hau
  rw [hds, Int.toNat_natCast] at hau
  have hlen : sound.length ≤ (file.drop t.first.toNat).length := by
    have := congrArg List.length hau
    rw [List.length_take] at this
    omega
  rw [List.length_drop] at hlen
  have hsl : ∀ a b, a + b ≤ sound.length → (file.drop (t.first.toNat + a)).take b = (sound.drop a).take b := by
    intro a b hab
    rw [← hau, List.drop_take, List.take_take, List.drop_drop, Nat.min_eq_left (by omega)]
  have hsound : SfConvert.sound file t = samplesOf F sound n := by
    unfold SfConvert.sound samplesOf
    rw [hs.frames, Int.toNat_natCast]
    refine List.map_congr_left fun i hi => ?_
    have hi := List.mem_range.1 hi
    unfold frameAt
    rw [hbpf, hsl _ _ (by
      have := Nat.mul_le_mul_right (bytesPerFrame F) (show i + 1 ≤ n from hi)
      rw [Nat.add_mul, Nat.one_mul] at this
      have := hn.2
      omega)]
    exact frameSamples_same hs.compression hcd hs.sample hFw _
  have hcomp : Complete file t := by
    refine ⟨by rw [hs.compression]; exact hcd, by rw [hs.channels, hFch]; omega, hf1, by rw [hs.frames]; omega, ?_⟩
    rw [hs.frames, hbpf, ← Int.natCast_mul]
    have hb : 1 ≤ bytesPerFrame F := by
      rw [← hF, frame_bytes]
      exact Nat.mul_pos (good_bytes hk).1 hch
    have := Nat.mul_pos hn.1 hb
    have := hn.2
    omega
  rw [← hsound]
  refine (AF.SfConvert.plays_own h fm hl hm (fun hz => ?_) hcomp).1
  exact hs.decoded (by rw [← hs.compression]; exact hz)

/-- The same, but for NIST. -/
theorem opens_of {F32 : Files.Float32} {F64 : Files.Float64} {rnd : Rat → Dbl} {fuel : Nat} {file : List Byte} {u : FileFormat}
    {rate : Rat} {channels : Nat} {order : Int} {k : Kind} {sound : List Byte} {n : Nat} (hk : Kind.Good k) (hch : 1 ≤ channels)
    (hsig : HasSignature file u) (hu : u ≠ .nist)
    (hrd : ∀ h, ∃ t p, readInit F32 F64 rnd h fuel u file 0 = .ok (t, p) ∧ SameSound (described rate channels order k) sound n file t) :
    Opens F32 F64 rnd fuel file (described rate channels order k) sound n :=
  opens_of' hk hch hsig fun h => by
    obtain ⟨t, p, a, b⟩ := hrd h
    exact ⟨t, p, a, b, fun e => absurd e hu⟩

end AF.Foreign
