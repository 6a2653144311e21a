import Verif.Model.Setup
/-! # What the samples given to `afWriteFrames` are, before any `afSetVirtual…` call -/
namespace AF.Setup

/-- The format a setup asks for, as a program on host `h` holds it in memory: uncompressed, in the host's byte order,
everything else as in the setup. -/
def inMemory (h : Endian) (f : AFmt) : AFmt := { f with compression := NONE, byteOrder := native h }

end AF.Setup
