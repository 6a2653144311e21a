import Verif.Model.Setup
import Verif.Model.FloatInt
/-! Formats as the conversion chain sees them, and the constants of `FloatToInt`. -/
namespace AF.Virtual
open AF.Setup AF.Convert

/-- The part of an `AudioFormat` that `ModuleState::arrange` looks at (AudioFormat.h:41-70). Uncompressed formats are
packed. A file format with a compression is handled by its file module, which gives or takes 16-bit signed samples
(G711.cpp:96-105 and the like): that is outside this definition. -/
def chainFormat (f : AFmt) : Fmt :=
  { sampleFormat := if f.sampleFormat = UNSIGNED then .unsigned else if f.sampleFormat = FLOAT then .float
                    else if f.sampleFormat = DOUBLE then .double else .twos
    width := f.sampleWidth.toNat, channels := f.channels.toNat
    byteOrder := if f.byteOrder = BIG then .big else .little
    compressed := f.compression ≠ NONE, packed := true
    pcm := f.pcm }

/-- The factor and the offset that `ConvertFloatToIntClip` computes from the two mappings, and its clip limits
(SimpleModule.h:677-680): what the module does to one finite sample. -/
def floatToInt (rnd : Rat → Dbl) (o : FC) (ip op : PCM) (x : Rat) : Option Int :=
  floatToIntSample rnd o (op.slope / ip.slope) (op.intercept - op.slope / ip.slope * ip.intercept) op.minClip op.maxClip (.fin x)

end AF.Virtual
