import Verif.Model.Setup
/-!
# Queries about what the library can do

query.cpp:53-480 and the tables of units.cpp:56-378. A parameter-value list made for an answer is reduced to its one value. Pointers are
reduced to what they point to: an array of ints, with its length, or a string. Allocations succeed. Error messages are not modelled.
`flac`: the library was built with FLAC.
-/
namespace AF.Query
open AF AF.Setup

/-- `struct InstParamInfo` (Instrument.h, AIFF.cpp:47-58, WAVE.cpp:104-113); `type` is `AU_PVTYPE_*`, the default is a long. -/
structure Param where
  id : Int
  type : Int
  name : String
  default : Int

/-- AIFF.cpp:47-58 -/
def aiffParams : List Param :=
  [⟨301, 1, "MIDI base note", 60⟩, ⟨302, 1, "Detune in cents", 0⟩, ⟨305, 1, "Low velocity", 1⟩, ⟨306, 1, "High velocity", 127⟩,
    ⟨303, 1, "Low note", 0⟩, ⟨304, 1, "High note", 127⟩, ⟨307, 1, "Gain in dB", 0⟩, ⟨308, 1, "Sustain loop id", 0⟩,
    ⟨309, 1, "Release loop id", 0⟩]

/-- WAVE.cpp:104-113 -/
def waveParams : List Param :=
  [⟨301, 1, "MIDI base note", 60⟩, ⟨302, 1, "Detune in cents", 0⟩, ⟨305, 1, "Low velocity", 1⟩, ⟨306, 1, "High velocity", 127⟩,
    ⟨303, 1, "Low note", 0⟩, ⟨304, 1, "High note", 127⟩, ⟨307, 1, "Gain in dB", 0⟩]

/-- `struct Unit` (units.h:37-60), without the functions; arrays with their counts are lists. -/
structure Unit where
  name : String
  description : String
  label : String
  implemented : Bool
  sampleFormat : Int
  sampleWidth : Int
  compressions : List Int
  markers : Int
  instruments : Int
  loops : Int
  params : List Param

/-- An entry of which only the first five fields are given; the others are zero (units.cpp:133-147, 218-222). -/
def absent (name description label : String) : Unit := ⟨name, description, label, false, 0, 0, [], 0, 0, 0, []⟩

/-- `_af_units` (units.cpp:56-261), with the lists of compression types AIFF.cpp:60-65, CAF.cpp:38-44, FLACFile.cpp:32-35, IRCAM.cpp:94-98,
NeXT.cpp:44-48, Raw.cpp:51-55, VOC.cpp:33-37, WAVE.cpp:96-102. FLAC is marked as implemented in every build. -/
def units : List Unit :=
  [⟨"Raw Data", "Raw Sound Data", "raw", true, 401, 16, [502, 503], 0, 0, 0, []⟩,
    ⟨"AIFF-C", "AIFF-C File Format", "aifc", true, 401, 16, [502, 503, 519], 65535, 1, 2, aiffParams⟩,
    ⟨"AIFF", "Audio Interchange File Format", "aiff", true, 401, 16, [], 65535, 1, 2, aiffParams⟩,
    ⟨"NeXT .snd/Sun .au", "NeXT .snd/Sun .au Format", "next", true, 401, 16, [502, 503], 0, 0, 0, []⟩,
    ⟨"MS RIFF WAVE", "Microsoft RIFF WAVE Format", "wave", true, 401, 16, [502, 503, 519, 523], 99999, 1, 99999, waveParams⟩,
    ⟨"BICSF", "Berkeley/IRCAM/CARL Sound Format", "bicsf", true, 401, 16, [502, 503], 0, 0, 0, []⟩,
    absent "MPEG" "MPEG Audio Bitstream" "mpeg",
    absent "Sound Designer 1" "Sound Designer 1 File Format" "sd1",
    absent "Sound Designer 2" "Sound Designer 2 File Format" "sd2",
    ⟨"AVR", "Audio Visual Research File Format", "avr", true, 401, 16, [], 0, 0, 0, []⟩,
    ⟨"IFF/8SVX", "Amiga IFF/8SVX Sound File Format", "iff", true, 401, 8, [], 0, 0, 0, []⟩,
    ⟨"Sample Vision", "Sample Vision File Format", "smp", true, 401, 16, [], 0, 0, 0, []⟩,
    ⟨"VOC", "Creative Voice File Format", "voc", true, 401, 16, [502, 503], 0, 0, 0, []⟩,
    ⟨"NIST SPHERE", "NIST SPHERE File Format", "nist", true, 401, 16, [], 0, 0, 0, []⟩,
    absent "SoundFont 2" "SoundFont 2 File Format" "sf2",
    ⟨"CAF", "Core Audio Format", "caf", true, 401, 16, [502, 503, 519, 540], 0, 0, 0, []⟩,
    ⟨"FLAC", "Free Lossless Audio Codec", "flac", true, 401, 16, [530], 0, 0, 0, []⟩]

/-- `struct CompressionUnit` (units.h:62-82), the parts queries can see. -/
structure Compression where
  id : Int
  implemented : Bool
  label : String
  shortname : String
  name : String
  sampleFormat : Int
  sampleWidth : Int

/-- `_af_compression` (units.cpp:263-378). -/
def compressions (flac : Bool) : List Compression :=
  [⟨0, true, "none", "none", "not compressed", 401, 16⟩,
    ⟨502, true, "ulaw", "CCITT G.711 u-law", "CCITT G.711 u-law", 401, 16⟩,
    ⟨503, true, "alaw", "CCITT G.711 A-law", "CCITT G.711 A-law", 401, 16⟩,
    ⟨519, true, "ima4", "IMA ADPCM", "IMA DVI ADPCM", 401, 16⟩,
    ⟨523, true, "msadpcm", "MS ADPCM", "Microsoft ADPCM", 401, 16⟩,
    ⟨530, flac, "flac", "FLAC", "Free Lossless Audio Codec", 401, 16⟩,
    ⟨540, true, "alac", "ALAC", "Apple Lossless Audio Codec", 401, 16⟩]

/-- What afQuery gives: nothing (`AU_NULL_PVLIST`), or a list with one value (util.cpp:164-189). -/
inductive Answer
  | nothing
  | long (n : Int)
  | ints (buffer : List Int)
  | text (s : String)
  deriving DecidableEq

/-- `_af_units[i]`: `none` when there is no such entry. -/
def unit? (i : Int) : Option Unit := if i < 0 then none else units[i.toNat]?

/-- The range check `i < 0 || i >= _AF_NUM_UNITS` followed by a use of the entry. -/
def withUnit (i : Int) (k : Unit → Answer) : Answer :=
  match unit? i with
  | none => .nothing
  | some u => k u

/-- The places of the implemented entries, counted from `i` (the loop of query.cpp:108-110). -/
def implementedFrom : Nat → List Unit → List Int
  | _, [] => []
  | i, u :: l => if u.implemented then (i : Int) :: implementedFrom (i + 1) l else implementedFrom (i + 1) l

/-- An array of `size` ints, zeroed by `_af_calloc`, of which the first ones are assigned. -/
def filled (size : Nat) (l : List Int) : List Int := l ++ List.replicate (size - l.length) 0

/-- query.cpp:82-204. The value of IMPLEMENTED for a format out of range is 0. -/
def queryFileFormat (arg1 arg2 arg3 : Int) : Answer :=
  if arg1 = 605 then .long (implementedFrom 0 units).length
  else if arg1 = 606 then
    (if (implementedFrom 0 units).length = 0 then .nothing else .ints (filled units.length (implementedFrom 0 units)))
  else if arg1 = 602 then withUnit arg2 fun u => .text u.label
  else if arg1 = 600 then withUnit arg2 fun u => .text u.name
  else if arg1 = 601 then withUnit arg2 fun u => .text u.description
  else if arg1 = 613 then
    (match unit? arg2 with
    | none => .long 0
    | some u => .long (if u.implemented then 1 else 0))
  else if arg1 = 623 then withUnit arg3 fun u => if arg2 = 604 then .long u.sampleFormat else .nothing
  else if arg1 = 622 then withUnit arg3 fun u => if arg2 = 604 then .long u.sampleWidth else .nothing
  else if arg1 = 624 then
    withUnit arg3 fun u =>
      if arg2 = 650 then .long u.compressions.length
      else if arg2 = 651 then (if u.compressions.length = 0 then .nothing else .ints u.compressions)
      else .nothing
  else .nothing

/-- Instrument.cpp:275-291, with the entry instead of its place. -/
def param? (u : Unit) (id : Int) : Option Param := u.params.find? (·.id == id)

/-- query.cpp:257-340 -/
def queryInstrumentParameter (arg1 arg2 arg3 : Int) : Answer :=
  if arg1 = 613 then withUnit arg2 fun u => .long (if u.params.length ≠ 0 then 1 else 0)
  else if arg1 = 605 then withUnit arg2 fun u => .long u.params.length
  else if arg1 = 606 then
    withUnit arg2 fun u => if u.params.length = 0 then .nothing else .ints (u.params.map (·.id))
  else if arg1 = 603 then
    withUnit arg2 fun u => match param? u arg3 with
      | none => .nothing
      | some p => .long p.type
  else if arg1 = 600 then
    withUnit arg2 fun u => match param? u arg3 with
      | none => .nothing
      | some p => .text p.name
  else if arg1 = 604 then
    withUnit arg2 fun u => match param? u arg3 with
      | none => .nothing
      | some p => .long p.default
  else .nothing

/-- query.cpp:343-358 -/
def queryLoop (arg1 arg2 : Int) : Answer :=
  withUnit arg2 fun u =>
    if arg1 = 613 then .long (if u.loops ≠ 0 then 1 else 0) else if arg1 = 612 then .long u.loops else .nothing

/-- query.cpp:361-379 -/
def queryInstrument (arg1 arg2 : Int) : Answer :=
  if arg1 = 613 then withUnit arg2 fun u => .long (if u.instruments ≠ 0 then 1 else 0)
  else if arg1 = 612 then withUnit arg2 fun u => .long u.instruments
  else .nothing

/-- query.cpp:389-402: the table is read without a check. -/
def queryMarker (arg1 arg2 : Int) : Except Abort Answer :=
  if arg1 = 613 then
    (match unit? arg2 with
    | none => .error .bufferOverflow
    | some u => .ok (.long (if u.markers ≠ 0 then 1 else 0)))
  else if arg1 = 612 then
    (match unit? arg2 with
    | none => .error .bufferOverflow
    | some u => .ok (.long u.markers))
  else .ok .nothing

/-- `_af_compression_unit_from_id` (compression.cpp:36-44). -/
def compression? (flac : Bool) (id : Int) : Option Compression := (compressions flac).find? (·.id == id)

/-- query.cpp:405-480 -/
def queryCompression (flac : Bool) (arg1 arg2 : Int) : Answer :=
  let ids := ((compressions flac).filter (·.implemented)).map (·.id)
  let withId (k : Compression → Answer) : Answer :=
    match compression? flac arg2 with
    | none => .nothing
    | some c => k c
  if arg1 = 605 then .long ids.length
  else if arg1 = 606 then .ints (filled (compressions flac).length ids)
  else if arg1 = 613 then
    (match compression? flac arg2 with
    | none => .long 0
    | some c => .long (if c.implemented then 1 else 0))
  else if arg1 = 609 then withId fun c => .long c.sampleFormat
  else if arg1 = 610 then withId fun c => .long c.sampleWidth
  else if arg1 = 602 then withId fun c => .text c.label
  else if arg1 = 600 then withId fun c => .text c.shortname
  else if arg1 = 601 then withId fun c => .text c.name
  else .nothing

/-- afQuery (query.cpp:53-79); the fourth argument is never used. -/
def query (flac : Bool) (type arg1 arg2 arg3 : Int) : Except Abort Answer :=
  if type = 505 then .ok (queryInstrument arg1 arg2)
  else if type = 500 then .ok (queryInstrumentParameter arg1 arg2 arg3)
  else if type = 507 then .ok (queryLoop arg1 arg2)
  else if type = 501 then .ok (queryFileFormat arg1 arg2 arg3)
  else if type = 502 then .ok (queryCompression flac arg1 arg2)
  else if type = 506 then queryMarker arg1 arg2
  else .ok .nothing

/-- afQueryLong (query.cpp:206-221): −1 when there is no number. -/
def queryLong (flac : Bool) (type arg1 arg2 arg3 : Int) : Except Abort Int :=
  match query flac type arg1 arg2 arg3 with
  | .error e => .error e
  | .ok (.long n) => .ok n
  | .ok _ => .ok (-1)

/-- What a pointer points to. -/
inductive Pointed
  | ints (buffer : List Int)
  | text (s : String)
  deriving DecidableEq

/-- afQueryPointer (query.cpp:239-255): null when there is no pointer. -/
def queryPointer (flac : Bool) (type arg1 arg2 arg3 : Int) : Except Abort (Option Pointed) :=
  match query flac type arg1 arg2 arg3 with
  | .error e => .error e
  | .ok (.ints b) => .ok (some (.ints b))
  | .ok (.text s) => .ok (some (.text s))
  | .ok _ => .ok none

end AF.Query
