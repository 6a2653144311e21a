import Verif.Model.Identify
import Verif.Model.Files.Simple
import Verif.Model.Files.VOC
import Verif.Model.Files.WAVE
import Verif.Model.Files.AIFF
import Verif.Model.Files.IFF
import Verif.Model.Files.CAF
import Verif.Model.Files.NIST
import Verif.Model.Files.SampleVision
/-!
# The codecs' checks of formats, and opening files
-/
namespace AF.Files
open AF AF.Setup

/-- `unit->fmtok` (units.cpp:271-378): PCM.cpp:40-48 (the `assert`s are compiled out), G711.cpp:63-80, IMA.cpp:339-362,
MSADPCM.cpp:416-440, ALAC.cpp:337-370, FLAC.cpp:486-489 (a library without FLAC). ALAC does not refuse the wrong byte order but
changes it. `none`: refused; an unknown compression type is refused too (ModuleState.cpp:54-57). -/
def codecCheck (h : Endian) (f : AFmt) : Option AFmt :=
  if f.compression = NONE then some f
  else if f.compression = ULAW ∨ f.compression = ALAW then
    if f.sampleFormat ≠ TWOSCOMP ∨ f.sampleWidth ≠ 16 then none
    else if f.byteOrder ≠ native h then none
    else some f
  else if f.compression = IMA ∨ f.compression = MSADPCM then
    if f.channels ≠ 1 ∧ f.channels ≠ 2 then none
    else if f.sampleFormat ≠ TWOSCOMP ∨ f.sampleWidth ≠ 16 then none
    else if f.byteOrder ≠ native h then none
    else some f
  else if f.compression = ALAC then
    if f.channels > 8 then none
    else if f.sampleFormat ≠ TWOSCOMP then none
    else if f.sampleWidth ≠ 16 ∧ f.sampleWidth ≠ 20 ∧ f.sampleWidth ≠ 24 ∧ f.sampleWidth ≠ 32 then none
    else if f.byteOrder ≠ native h then some { f with byteOrder := native h }
    else some f
  else none

/-- `readInit` of a format (FileHandle.cpp:60-105 chooses the class): the track. Raw files need a setup; without FLAC,
FLACFile.cpp's `readInit` fails; the other formats are only names. -/
def readInit (F32 : Float32) (F64 : Float64) (rnd : Rat → Convert.Dbl) (h : Endian) (fuel : Nat) : FileFormat → Rd Trk
  | .aiff | .aiffc => do return (← aiffRead rnd h fuel).t
  | .next => nextRead h
  | .wave => do return (← waveRead h fuel).t
  | .ircam => ircamRead F32 h
  | .avr => avrRead h
  | .iff => do return (← iffRead h fuel).t
  | .smp => do return (← smpRead h).1
  | .voc => vocRead h fuel
  | .nist => nistRead h
  | .caf => do return (← cafRead F64 h fuel).t
  | .raw | .flac | .mpeg1 | .sd1 | .sd2 | .sf2 => Rd.fail

/-- `_afOpenFile` for reading without a setup (openclose.cpp:272-403) up to the codec's check (ModuleState.cpp:52-60), as far as
the track goes. The creation of the codec (`initdecompress`) is not part of it. -/
def openRead (F32 : Float32) (F64 : Float64) (rnd : Rat → Convert.Dbl) (h : Endian) (fuel : Nat) : Rd Trk := do
  match ← identify with
  | none => Rd.fail
  | some u =>
    let t ← readInit F32 F64 rnd h fuel u
    match codecCheck h t.f with
    | none => Rd.fail
    | some f => return { t with f := f }

end AF.Files
