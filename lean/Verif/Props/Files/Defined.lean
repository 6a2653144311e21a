import Verif.Proof.Defined
import Verif.Model.Files.Simple
import Verif.Model.Files.VOC
/-!
# C51: opening does not use what was never read
-/
namespace AF.Files
open AF AF.Setup

theorem b4' : FieldSize.s4.bytes = 4 := rfl
theorem b2' : FieldSize.s2.bytes = 2 := rfl

/-- C51: a NeXT file of at least 24 bytes is opened or refused, whatever it contains. -/
theorem C51_next_defined (h : Endian) (file : List Byte) (hl : 24 ≤ file.length) (p : Nat) :
    nextRead h file p ≠ .error .undefined := by
  have := b4'
  refine Def.not_undefined (Q := fun _ _ => True) ?_
  unfold nextRead
  refine (Def.seek 0).bind fun _ q hq => ?_
  subst hq
  refine (Def.read 4 (by omega)).bind fun _ q hq => ?_
  replace hq := hq.1
  refine (Def.field h .big .s4 (by omega)).bind fun _ q2 hq2 => ?_
  refine (Def.field h .big .s4 (by omega)).bind fun _ q3 hq3 => ?_
  refine (Def.field h .big .s4 (by omega)).bind fun _ q4 hq4 => ?_
  refine (Def.field h .big .s4 (by omega)).bind fun _ q5 hq5 => ?_
  refine (Def.field h .big .s4 (by omega)).bind fun _ q6 hq6 => ?_
  refine Def.ite (fun _ => Def.fail) fun _ => ?_
  refine Def.length.bind fun _ q7 hq7 => ?_
  dsimp only
  split
  · exact Def.fail
  · exact Def.pure trivial

/-- C51 is false for shorter ones: the number of channels, say, is whatever was in memory. -/
theorem C51_next_short (h : Endian) : nextRead h (tag ".snd" ++ [0, 0, 0, 24]) 0 = .error .undefined := by
  cases h <;> rfl

/-- C51: an AVR file of at least 38 bytes is opened or refused. -/
theorem C51_avr_defined (h : Endian) (file : List Byte) (hl : 38 ≤ file.length) (p : Nat) :
    avrRead h file p ≠ .error .undefined := by
  have := b4'
  have := b2'
  refine Def.not_undefined (Q := fun _ _ => True) ?_
  unfold avrRead
  refine (Def.seek 0).bind fun _ q hq => ?_
  subst hq
  refine (Def.read 4 (by omega)).bind fun _ q hq => ?_
  replace hq := hq.1
  refine Def.ite (fun _ => Def.fail) fun _ => ?_
  refine (Def.read 8 (by omega)).bind fun _ r hr => ?_
  replace hr := hr.1
  refine (Def.field h .big .s2 (by omega)).bind fun _ q2 hq2 => ?_
  refine (Def.field h .big .s2 (by omega)).bind fun _ q3 hq3 => ?_
  refine (Def.field h .big .s2 (by omega)).bind fun _ q4 hq4 => ?_
  refine (Def.field? h .big .s2 (by omega)).bind fun _ q5 hq5 => ?_
  replace hq5 := hq5.1
  refine (Def.field? h .big .s2 (by omega)).bind fun _ q6 hq6 => ?_
  replace hq6 := hq6.1
  refine (Def.field h .big .s4 (by omega)).bind fun _ q7 hq7 => ?_
  refine (Def.field h .big .s4 (by omega)).bind fun _ q8 hq8 => ?_
  refine (Def.field? h .big .s4 (by omega)).bind fun _ q9 hq9 => ?_
  replace hq9 := hq9.1
  refine (Def.field? h .big .s4 (by omega)).bind fun _ q10 _ => ?_
  refine (Def.read' 26).bind fun _ q11 _ => ?_
  refine (Def.read' 64).bind fun _ q12 _ => ?_
  refine Def.ite (fun _ => Def.fail) fun _ => ?_
  refine Def.ite (fun _ => Def.fail) fun _ => ?_
  refine Def.ite (fun _ => Def.fail) fun _ => ?_
  exact (Def.tell).bind fun _ _ _ => Def.pure trivial

theorem C51_avr_short (h : Endian) : avrRead h (tag "2BIT") 0 = .error .undefined := by
  cases h <;> rfl

/-- C51: an IRCAM file of at least 16 bytes is opened or refused. -/
theorem C51_ircam_defined (F : Float32) (h : Endian) (file : List Byte) (hl : 16 ≤ file.length) (p : Nat) :
    ircamRead F h file p ≠ .error .undefined := by
  have := b4'
  refine Def.not_undefined (Q := fun _ _ => True) ?_
  unfold ircamRead
  refine (Def.seek 0).bind fun _ q hq => ?_
  subst hq
  refine (Def.read 4 (by omega)).bind fun _ q hq => ?_
  replace hq := hq.1
  split
  · exact Def.fail
  · refine (Def.field h _ .s4 (by omega)).bind fun _ q2 hq2 => ?_
    refine (Def.field h _ .s4 (by omega)).bind fun _ q3 hq3 => ?_
    refine (Def.field h _ .s4 (by omega)).bind fun _ q4 hq4 => ?_
    refine Def.ite (fun _ => Def.fail) fun _ => ?_
    dsimp only
    split
    · exact Def.fail
    · exact (Def.length).bind fun _ _ _ => Def.pure trivial

theorem C51_ircam_short (F : Float32) (h : Endian) : ircamRead F h [0x64, 0xa3, 0x01, 0x00] 0 = .error .undefined := by
  cases h <;> rfl

/-- C51 is false for VOC files of any length without a sound block: the format reported is whatever was in memory. -/
theorem C51_voc_none (h : Endian) (fuel : Nat) :
    vocRead h (fuel + 1) (tag "Creative Voice File" ++ [26, 26, 0, 10, 1, 41, 17]) 0 = .error .undefined := by
  cases h <;> rfl

end AF.Files
