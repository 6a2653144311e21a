import Verif.Model.Setup
import Verif.Model.Disk
/-!
# Signatures of file formats

The bytes by which files of each format are known, from the formats' definitions.
-/
namespace AF.Spec.Files
open AF AF.Setup AF.Files

/-- The bytes at a place of the file. -/
def At (file : List Byte) (place : Nat) (bytes : List Byte) : Prop := (file.drop place).take bytes.length = bytes

/-- The file has the signature of a format. Raw files have none, and the formats the library only has names for cannot be told. -/
def HasSignature (file : List Byte) : FileFormat → Prop
  | .raw | .mpeg1 | .sd1 | .sd2 | .sf2 => False
  | .aiff => At file 0 (tag "FORM") ∧ At file 8 (tag "AIFF")
  | .aiffc => At file 0 (tag "FORM") ∧ At file 8 (tag "AIFC")
  | .iff => At file 0 (tag "FORM") ∧ At file 8 (tag "8SVX")
  | .wave => At file 0 (tag "RIFF") ∧ At file 8 (tag "WAVE")
  | .next => At file 0 (tag ".snd")
  | .avr => At file 0 (tag "2BIT")
  | .ircam => ∃ k ∈ [1, 2, 3, 4], At file 0 [0x64, 0xa3, k, 0x00] ∨ At file 0 [0x00, k, 0xa3, 0x64]
  | .smp => At file 0 (tag "SOUND SAMPLE DATA ")
  | .voc => At file 0 (tag "Creative Voice File" ++ [0x1a])
  | .nist => At file 0 (tag "NIST_1A\n   1024\n")
  | .caf => At file 0 (tag "caff") ∧ At file 4 [0, 1, 0, 0]
  | .flac => At file 0 (tag "fLaC")

end AF.Spec.Files
