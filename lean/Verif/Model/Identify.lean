import Verif.Model.Files.NIST
import Verif.Model.Files.Simple
import Verif.Model.Files.VOC
/-!
# Recognising a file (units.cpp, `recognize` of every format, `_af_identify`)
-/
namespace AF.Files
open AF AF.Setup

/-- Four bytes at the beginning: AVR.cpp:64-74, NeXT.cpp:205-215, FLACFile.cpp:52-64. -/
def startsWith (n : Nat) (magic : List Byte) : Rd Bool := do
  Rd.seek 0
  let b ← Rd.read n
  return b.length = n ∧ b = magic

/-- A tag, four bytes, and another tag: AIFF.cpp:571-597, WAVE.cpp:684-696, IFF.cpp:61-73. -/
def formOf (outer inner : List Byte) : Rd Bool := do
  Rd.seek 0
  let b ← Rd.read 8
  if b.length ≠ 8 ∨ b.take 4 ≠ outer then return false
  else
    let b ← Rd.read 4
    if b.length ≠ 4 ∨ b ≠ inner then return false else return true

/-- IRCAM.cpp:100-125 -/
def ircamRecognize : Rd Bool := do
  Rd.seek 0
  let b ← Rd.read 4
  if b.length ≠ 4 then return false
  else return ircamMagics.any fun m => b = m.1

/-- CAF.cpp:88-98 -/
def cafRecognize : Rd Bool := do
  Rd.seek 0
  let b ← Rd.read 8
  if b.length ≠ 8 ∨ b.take 4 ≠ tag "caff" then return false
  else if b.drop 4 ≠ [0, 1, 0, 0] then return false else return true

/-- `_af_units[i].recognize` (units.cpp:56-261); `none`: a null pointer. Raw.cpp:57-60 refuses everything.
NIST.cpp:62-77 and VOC.cpp:89-98 use `memcmp`; SampleVision.cpp:77-84 uses `strncmp` with a text without zero bytes, which
comes to the same. -/
def recognizer : FileFormat → Option (Rd Bool)
  | .raw => some (return false)
  | .aiffc => some (formOf (tag "FORM") (tag "AIFC"))
  | .aiff => some (formOf (tag "FORM") (tag "AIFF"))
  | .next => some (startsWith 4 (tag ".snd"))
  | .wave => some (formOf (tag "RIFF") (tag "WAVE"))
  | .ircam => some ircamRecognize
  | .avr => some (startsWith 4 (tag "2BIT"))
  | .iff => some (formOf (tag "FORM") (tag "8SVX"))
  | .smp => some (startsWith 18 smpMagic)
  | .voc => some (startsWith 20 vocMagic)
  | .nist => some (startsWith 16 nistMagic)
  | .caf => some cafRecognize
  | .flac => some (startsWith 4 (tag "fLaC"))
  | .mpeg1 | .sd1 | .sd2 | .sf2 => none

/-- The loop of `_af_identify` (openclose.cpp:58-69). -/
def firstOf : List FileFormat → Rd (Option FileFormat)
  | [] => return none
  | u :: us =>
    match recognizer u with
    | none => firstOf us
    | some r => do
      if ← r then return some u else firstOf us

/-- `_af_identify` (openclose.cpp:48-76) on a file that can be sought in; `none` is `AF_FILE_UNKNOWN`. -/
def identify : Rd (Option FileFormat) := do
  let cur ← Rd.tell
  let r ← firstOf FileFormat.all
  Rd.seek cur
  return r

end AF.Files
