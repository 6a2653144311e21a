import Verif.Model.Virtual
import Verif.Model.Chunks
import Verif.Model.G711
import Verif.Props.Convert
/-!
# Programs that write and programs that read, down to the bytes of the file

This joins the parts: the calls of a program (`afWriteFrames`, `afSyncFile`, metadata calls), the conversion chain
(`Verif.Model.Convert`), the codec, and the file (`Verif.Model.Disk`); and on the way back the track that opening reports
(`Verif.Model.Codec`), the codec, the chain and `afReadFrames`/`afSeekFrame` (`Verif.Model.Reading`).

Simplifications: tracks without compression and G.711 only; the virtual sample rate is the file's; the virtual format stays the
same while writing; every write succeeds.
-/
namespace AF.Program
open AF AF.Setup AF.Files AF.Convert AF.Virtual AF.Spec

/-- What `afWriteFrames` puts into the file for one frame that has gone through the chain: PCM.cpp:91-122 writes it as it is,
`linear2ulaw_buf`, `linear2alaw_buf` (G711.cpp:44-61) turn each 16-bit sample into a byte. -/
def encodeFrame (h : Endian) (f : AFmt) (g : List Byte) : List Byte :=
  if f.compression = ULAW then mapSamples 2 (fun b => [BitVec.ofNat 8 (G711.linear2ulaw (sval h b))]) g
  else if f.compression = ALAW then mapSamples 2 (fun b => [BitVec.ofNat 8 (G711.linear2alaw (sval h b))]) g
  else g

/-- The other way: PCM.cpp:152-182, `ulaw2linear_buf`, `alaw2linear_buf` (G711.cpp:38-42, 50-54). -/
def decodeFrame (h : Endian) (f : AFmt) (p : List Byte) : List Byte :=
  if f.compression = ULAW then p.flatMap fun b => toBytes h 2 (G711.ulaw2linear b.toNat)
  else if f.compression = ALAW then p.flatMap fun b => toBytes h 2 (G711.alaw2linear b.toNat)
  else p

/-- Bytes per frame as the file modules count them (PCM.cpp:55-57 `bytesPerFrame(false)`, G711.cpp:127, 196 `channelCount`). -/
def packetSize (f : AFmt) : Nat :=
  if f.compression = NONE then (chainFormat f).bytesPerSample false * f.channels.toNat else f.channels.toNat

/-- The bytes that `afWriteFrames` leaves in the file for one frame in the user's buffer, whose samples are `fr`, in the virtual
format `v`. -/
def frameBytes (h : Endian) (fm : Module → List Byte → List Byte) (v : Fmt) (f : AFmt) (fr : List Int) : List Byte :=
  encodeFrame h f (toFile h fm v (chainFormat f) (userBytes v.byteOrder ((v.width + 7) / 8) fr))

/-- The calls of a program that writes a file. -/
inductive Call
  /-- `afWriteFrames`; each frame is a list of samples -/
  | write (frames : List (List Int))
  /-- `afSyncFile` -/
  | sync
  /-- a call that concerns markers, instruments or miscellaneous data -/
  | about (op : Meta.Op)

/-- What reaches the file for each call (the chunks of 1024 frames of data.cpp:98-114 follow each other). -/
def Call.event (h : Endian) (fm : Module → List Byte → List Byte) (v : Fmt) (f : AFmt) : Call → MEv
  | .write frames => .ev (.data (frames.flatMap (frameBytes h fm v f)) frames.length)
  | .sync => .ev .sync
  | .about op => .call op

def mevents (h : Endian) (fm : Module → List Byte → List Byte) (v : Fmt) (f : AFmt) (calls : List Call) : List MEv :=
  calls.map (Call.event h fm v f)

/-- The same for the formats that store no markers, instruments or miscellaneous data. -/
def events (h : Endian) (fm : Module → List Byte → List Byte) (v : Fmt) (f : AFmt) (calls : List Call) : List Ev :=
  (mevents h fm v f calls).filterMap fun | .ev e => some e | .call _ => none

/-- The track of format `f` opened for writing with a header of `first` bytes, for the model of the modules
(`Verif.Model.Writing`). -/
def trackWriter (h : Endian) (fm : Module → List Byte → List Byte) (f : AFmt) (hb : 0 < packetSize f) (update : Option Int)
    (first : Nat) : Writing.Cfg Fmt (List Byte) (List Int) Unit where
  kind := if f.compression = NONE then .pcm else .g711
  fpp := 1
  bpp := packetSize f
  fpp_pos := by decide
  bpp_pos := hb
  first := first
  encode := fun e fs => ((fs.flatMap (encodeFrame h f) ++ List.replicate (packetSize f) 0).take (packetSize f), e)
  conv := fun v fr => toFile h fm v (chainFormat f) (userBytes v.byteOrder ((v.width + 7) / 8) fr)
  afterUpdate := update
  junk := [[]]
  checks := false

/-- The track `t` that opening `file` reports, for the model of the modules (`Verif.Model.Reading`). -/
def trackReader (h : Endian) (fm : Module → List Byte → List Byte) (file : List Byte) (t : Trk) (hb : 0 < packetSize t.f) :
    Reading.Cfg Fmt (List Byte) (List Byte) where
  kind := if t.f.compression = NONE then .pcm else .g711
  fpp := 1
  bpp := packetSize t.f
  fpp_pos := by decide
  bpp_pos := hb
  decode := fun p => [decodeFrame h t.f p]
  conv := fun v => fromFile h fm v (chainFormat t.f)
  hasConv := fun v => match arrange h true (chainFormat t.f) v with
    | some c => !c.mods.isEmpty
    | none => false
  file := file
  fposFirst := t.first
  totalf := t.frames
  seekok := true
  checks := false

end AF.Program
