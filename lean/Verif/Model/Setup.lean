import Verif.Model.Meta
import Verif.Model.Convert
import Verif.Model.CInt
/-!
# File setups, and what an open file takes from them

Setup.cpp, the `afInit*` calls of Marker.cpp, Instrument.cpp, Loop.cpp, Miscellaneous.cpp, aes.cpp, compression.cpp and
pcm.cpp, the `completeSetup` of every file format but FLAC, `_af_filesetup_copy`, and the copies made when a file is
opened for writing (FileHandle.cpp:222-345, Track.cpp:145-171, openclose.cpp:365-398).

Simplifications: arrays with their counts are lists; allocations succeed; list lengths passed by the caller are not
negative; rates are rationals (finite doubles); names and comments are byte strings without zero bytes. Sharing of
memory between a setup and its copies is modelled in Verif/Model/SetupHeap.lean, not here.
-/
namespace AF.Setup
open AF.Convert (PCM defaultSigned defaultUnsigned)
open AF.Meta (updFirst)

/-! ## Constants (audiofile.h:79-209) -/

abbrev TWOSCOMP : Int := 401
abbrev UNSIGNED : Int := 402
abbrev FLOAT : Int := 403
abbrev DOUBLE : Int := 404
abbrev BIG : Int := 501
abbrev LITTLE : Int := 502
abbrev NONE : Int := 0
abbrev ULAW : Int := 502
abbrev ALAW : Int := 503
abbrev IMA : Int := 519
abbrev MSADPCM : Int := 523
abbrev ALAC : Int := 540
abbrev DEFAULT_TRACK : Int := 1001
abbrev DEFAULT_INST : Int := 2001

/-- File formats, `AF_FILE_*` (audiofile.h:100-118). -/
inductive FileFormat
  | raw | aiffc | aiff | next | wave | ircam | mpeg1 | sd1 | sd2 | avr | iff | smp | voc | nist | sf2 | caf | flac
  deriving DecidableEq, Repr

/-- The number of a file format is its place in this list. -/
def FileFormat.all : List FileFormat :=
  [.raw, .aiffc, .aiff, .next, .wave, .ircam, .mpeg1, .sd1, .sd2, .avr, .iff, .smp, .voc, .nist, .sf2, .caf, .flac]

/-- `_af_units[i].implemented` (units.cpp:56-261). -/
def FileFormat.implemented : FileFormat → Bool
  | .mpeg1 | .sd1 | .sd2 | .sf2 => false
  | _ => true

/-- `struct AudioFormat` (AudioFormat.h:33-52) without `compressionParams` (always null), `packed` and the packet
geometry, which no setup call touches. -/
structure AFmt where
  rate : Rat
  sampleFormat : Int
  sampleWidth : Int
  byteOrder : Int
  pcm : PCM
  channels : Int
  compression : Int
  deriving DecidableEq

/-- `struct MarkerSetup` (Marker.h:24-28) -/
structure MarkerSetup where
  id : Int
  name : List Byte
  comment : List Byte
  deriving DecidableEq

/-- `struct TrackSetup` (Track.h:36-54) -/
structure TrackSetup where
  id : Int
  f : AFmt
  rateSet : Bool
  sampleFormatSet : Bool
  sampleWidthSet : Bool
  byteOrderSet : Bool
  channelCountSet : Bool
  compressionSet : Bool
  aesDataSet : Bool
  markersSet : Bool
  dataOffsetSet : Bool
  frameCountSet : Bool
  markers : List MarkerSetup
  dataOffset : Int
  frameCount : Int
  deriving DecidableEq

/-- `struct InstrumentSetup` (Instrument.h); `loopSet` is never set to true by any call. -/
structure InstrumentSetup where
  id : Int
  loops : List Int
  loopSet : Bool
  deriving DecidableEq

/-- `struct MiscellaneousSetup` (afinternal.h:82-87) -/
structure MiscSetup where
  id : Int
  type : Int
  size : Int
  deriving DecidableEq

/-- `struct _AFfilesetup` (Setup.h:30-51) -/
structure Setup where
  fileFormat : FileFormat
  trackSet : Bool
  instrumentSet : Bool
  miscellaneousSet : Bool
  tracks : List TrackSetup
  instruments : List InstrumentSetup
  miscellaneous : List MiscSetup
  deriving DecidableEq

/-- `_AF_BYTEORDER_NATIVE` (byteorder.h:28-32) -/
def native : Endian → Int
  | .big => BIG
  | .little => LITTLE

/-! ## Formats -/

/-- util.cpp:263-284. The C division rounds toward zero. -/
def sampleSizeUncompressed (f : AFmt) (stretch3to4 : Bool) : Int :=
  if f.sampleFormat = FLOAT then 4
  else if f.sampleFormat = DOUBLE then 8
  else
    let size := (f.sampleWidth + 7).tdiv 8
    if f.compression = NONE ∧ size = 3 ∧ stretch3to4 then 4 else size

/-- util.cpp:295-299 -/
def frameSizeUncompressed (f : AFmt) (stretch3to4 : Bool) : Int := sampleSizeUncompressed f stretch3to4 * f.channels

/-- `_af_compression[]` ids with their squish factors (units.cpp:263-378). -/
def compressionUnits : List (Int × Rat) :=
  [(NONE, 1), (ULAW, 2), (ALAW, 2), (IMA, 4), (MSADPCM, 4), (530, 1), (ALAC, 1)]

/-- compression.cpp:38-46 -/
def compressionUnit (id : Int) : Option Rat := (compressionUnits.find? (·.1 == id)).map (·.2)

/-- util.cpp:301-308, `afGetFrameSize` and `afGetVirtualFrameSize` (format.cpp:77-99), in exact arithmetic. A
compression type without an entry (a null pointer dereference) cannot be set. -/
def frameSize (f : AFmt) (stretch3to4 : Bool) : Option Rat :=
  (compressionUnit f.compression).map fun squish => (frameSizeUncompressed f stretch3to4 : Rat) / squish

/-- `_af_set_sample_format` (util.cpp:315-361): success, and the format afterwards. The table index `bytes` is in
0..4 for the widths that pass the test. -/
def setSampleFormat (f : AFmt) (sampleFormat sampleWidth : Int) : Bool × AFmt :=
  if sampleFormat = UNSIGNED ∨ sampleFormat = TWOSCOMP then
    if sampleWidth < 1 ∨ sampleWidth > 32 then (false, f)
    else
      let f := { f with sampleFormat := sampleFormat, sampleWidth := sampleWidth }
      let bytes := (sampleSizeUncompressed f false).toNat
      if sampleFormat = TWOSCOMP then (true, { f with pcm := defaultSigned bytes })
      else (true, { f with pcm := defaultUnsigned bytes })
  else if sampleFormat = FLOAT then
    (true, { f with sampleFormat := sampleFormat, sampleWidth := 32, pcm := ⟨1, 0, 0, 0⟩ })
  else if sampleFormat = DOUBLE then
    (true, { f with sampleFormat := sampleFormat, sampleWidth := 64, pcm := ⟨1, 0, 0, 0⟩ })
  else (false, f)

/-- AudioFormat.cpp:60-79, AudioFormat.h:66 -/
def AFmt.isUncompressed (f : AFmt) : Bool := f.compression = NONE
def AFmt.isSigned (f : AFmt) : Bool := f.sampleFormat = TWOSCOMP
def AFmt.isUnsigned (f : AFmt) : Bool := f.sampleFormat = UNSIGNED
def AFmt.isInteger (f : AFmt) : Bool := f.sampleFormat = TWOSCOMP ∨ f.sampleFormat = UNSIGNED
def AFmt.orderMatters (f : AFmt) : Bool := f.sampleWidth > 8

/-! ## A new setup -/

/-- `_af_default_tracksetup` (Setup.cpp:73-99) completed by `_af_tracksetup_new` (Setup.cpp:101-148). -/
def newTrack (h : Endian) (i : Nat) : TrackSetup :=
  let f : AFmt := { rate := 44100, sampleFormat := TWOSCOMP, sampleWidth := 16, byteOrder := native h,
                    pcm := ⟨32768, 0, -32768, 32767⟩, channels := 2, compression := NONE }
  { id := DEFAULT_TRACK + i
    f := (setSampleFormat f f.sampleFormat f.sampleWidth).2
    rateSet := false, sampleFormatSet := false, sampleWidthSet := false, byteOrderSet := false
    channelCountSet := false, compressionSet := false, aesDataSet := false, markersSet := false
    dataOffsetSet := false, frameCountSet := false
    markers := (List.range 4).map fun (j : Nat) => { id := (j : Int) + 1, name := [], comment := [] }
    dataOffset := 0, frameCount := 0 }

/-- `_af_default_instrumentsetup` and `_af_instsetup_new` (Setup.cpp:65-71, 150-179). -/
def newInstruments (n : Nat) : List InstrumentSetup :=
  (List.range n).map fun (i : Nat) => { id := DEFAULT_INST + i, loops := [1, 2], loopSet := false }

/-- `afNewFileSetup` (Setup.cpp:42-63, 181-209). -/
def newSetup (h : Endian) : Setup :=
  { fileFormat := if h = .big then .aiffc else .wave
    trackSet := false, instrumentSet := false, miscellaneousSet := false
    tracks := (List.range 1).map (newTrack h)
    instruments := newInstruments 1
    miscellaneous := [] }

/-! ## Setup calls -/

/-- `_af_unique_ids` (util.cpp:369-384): each id is compared with those before it. -/
def uniqueIds (ids : List Int) : Bool :=
  (List.range ids.length).all fun i => (List.range i).all fun j => ids[i]? != ids[j]?

/-- A change of the track with the given id, if there is one (`getTrack`, Setup.cpp:532-542). -/
def Setup.onTrack (s : Setup) (t : Int) (g : TrackSetup → TrackSetup) : Setup :=
  { s with tracks := updFirst (·.id == t) g s.tracks }

/-- Setup.cpp:285-306 -/
def initFileFormat (s : Setup) (filefmt : Int) : Setup :=
  if filefmt < 0 ∨ filefmt ≥ 17 then s else
  match FileFormat.all[filefmt.toNat]? with
  | none => s
  | some u => if !u.implemented then s else { s with fileFormat := u }

/-- Setup.cpp:308-326 -/
def initChannels (s : Setup) (t channels : Int) : Setup :=
  s.onTrack t fun tr =>
    if channels < 1 then tr else { tr with f := { tr.f with channels := channels }, channelCountSet := true }

/-- Setup.cpp:328-341: the result of `_af_set_sample_format` is not looked at. -/
def initSampleFormat (s : Setup) (t sampfmt sampwidth : Int) : Setup :=
  s.onTrack t fun tr =>
    { tr with f := (setSampleFormat tr.f sampfmt sampwidth).2, sampleFormatSet := true, sampleWidthSet := true }

/-- Setup.cpp:343-361 -/
def initByteOrder (s : Setup) (t byteorder : Int) : Setup :=
  s.onTrack t fun tr =>
    if byteorder ≠ BIG ∧ byteorder ≠ LITTLE then tr
    else { tr with f := { tr.f with byteOrder := byteorder }, byteOrderSet := true }

/-- Setup.cpp:363-380 -/
def initRate (s : Setup) (t : Int) (rate : Rat) : Setup :=
  s.onTrack t fun tr =>
    if rate ≤ 0 then tr else { tr with f := { tr.f with rate := rate }, rateSet := true }

/-- Setup.cpp:385-403 -/
def initDataOffset (s : Setup) (t offset : Int) : Setup :=
  s.onTrack t fun tr =>
    if offset < 0 then tr else { tr with dataOffset := offset, dataOffsetSet := true }

/-- Setup.cpp:408-426 -/
def initFrameCount (s : Setup) (t count : Int) : Setup :=
  s.onTrack t fun tr =>
    if count < 0 then tr else { tr with frameCount := count, frameCountSet := true }

/-- compression.cpp:62-77 -/
def initCompression (s : Setup) (t compression : Int) : Setup :=
  s.onTrack t fun tr =>
    match compressionUnit compression with
    | none => tr
    | some _ => { tr with f := { tr.f with compression := compression }, compressionSet := true }

/-- pcm.cpp:67-82 -/
def initPCMMapping (s : Setup) (t : Int) (p : PCM) : Setup :=
  s.onTrack t fun tr => { tr with f := { tr.f with pcm := p } }

/-- aes.cpp:40-62 (`afInitAESChannelData` is `willBeData = true`). -/
def initAES (s : Setup) (t : Int) (willBeData : Bool) : Setup :=
  s.onTrack t fun tr => { tr with aesDataSet := willBeData }

/-- Marker.cpp:42-74: no test for repeated ids. -/
def initMarkIDs (s : Setup) (t : Int) (ids : List Int) : Setup :=
  s.onTrack t fun tr =>
    { tr with markers := ids.map fun id => { id := id, name := [], comment := [] }, markersSet := true }

/-- Marker.cpp:76-119: names are cut to 255 bytes. -/
def initMarkName (s : Setup) (t m : Int) (name : List Byte) : Setup :=
  s.onTrack t fun tr =>
    { tr with markers := updFirst (·.id == m) (fun mk => { mk with name := name.take 255 }) tr.markers }

/-- Marker.cpp:121-152 -/
def initMarkComment (s : Setup) (t m : Int) (comment : List Byte) : Setup :=
  s.onTrack t fun tr =>
    { tr with markers := updFirst (·.id == m) (fun mk => { mk with comment := comment }) tr.markers }

/-- Instrument.cpp:80-97 -/
def initInstIDs (s : Setup) (ids : List Int) : Setup :=
  if !uniqueIds ids then s else
  { s with
    instrumentSet := true
    instruments := (newInstruments ids.length).zipWith (fun inst id => { inst with id := id }) ids }

/-- Loop.cpp:37-55. For an empty list `calloc(0)` counts as a failure (util.cpp:93-105), after the old list was
freed: the result is the same. -/
def initLoopIDs (s : Setup) (i : Int) (ids : List Int) : Setup :=
  if !uniqueIds ids then s else
  { s with instruments := updFirst (·.id == i) (fun inst => { inst with loops := ids }) s.instruments }

/-- Miscellaneous.cpp:41-72: no test for repeated ids. -/
def initMiscIDs (s : Setup) (ids : List Int) : Setup :=
  { s with miscellaneous := ids.map fun id => { id := id, type := 0, size := 0 }, miscellaneousSet := true }

/-- Miscellaneous.cpp:90-98 -/
def initMiscType (s : Setup) (m type : Int) : Setup :=
  { s with miscellaneous := updFirst (·.id == m) (fun x => { x with type := type }) s.miscellaneous }

/-- Miscellaneous.cpp:111-119 -/
def initMiscSize (s : Setup) (m size : Int) : Setup :=
  { s with miscellaneous := updFirst (·.id == m) (fun x => { x with size := size }) s.miscellaneous }

/-- The calls a program can make on a setup. -/
inductive Op
  | fileFormat (f : Int)
  | channels (t n : Int)
  | sampleFormat (t fmt width : Int)
  | byteOrder (t o : Int)
  | rate (t : Int) (r : Rat)
  | dataOffset (t o : Int)
  | frameCount (t n : Int)
  | compression (t c : Int)
  | pcmMapping (t : Int) (p : PCM)
  | aes (t : Int) (on : Bool)
  | markIDs (t : Int) (ids : List Int)
  | markName (t m : Int) (name : List Byte)
  | markComment (t m : Int) (comment : List Byte)
  | instIDs (ids : List Int)
  | loopIDs (i : Int) (ids : List Int)
  | miscIDs (ids : List Int)
  | miscType (m type : Int)
  | miscSize (m size : Int)

def step (s : Setup) : Op → Setup
  | .fileFormat f => initFileFormat s f
  | .channels t n => initChannels s t n
  | .sampleFormat t f w => initSampleFormat s t f w
  | .byteOrder t o => initByteOrder s t o
  | .rate t r => initRate s t r
  | .dataOffset t o => initDataOffset s t o
  | .frameCount t n => initFrameCount s t n
  | .compression t c => initCompression s t c
  | .pcmMapping t p => initPCMMapping s t p
  | .aes t on => initAES s t on
  | .markIDs t ids => initMarkIDs s t ids
  | .markName t m name => initMarkName s t m name
  | .markComment t m c => initMarkComment s t m c
  | .instIDs ids => initInstIDs s ids
  | .loopIDs i ids => initLoopIDs s i ids
  | .miscIDs ids => initMiscIDs s ids
  | .miscType m t => initMiscType s m t
  | .miscSize m n => initMiscSize s m n

def run (s : Setup) (ops : List Op) : Setup := ops.foldl step s

/-! ## Completing a setup for a file format -/

/-- `_af_filesetup_copy` (Setup.cpp:443-530). The default setups of all formats have the three `Set` flags true and
one track; they differ in the file format and the number of instruments taken when the caller set none. -/
def filesetupCopy (s : Setup) (fmt : FileFormat) (defaultInstruments : Nat) (copyMarks : Bool) : Setup :=
  let trackCount := if s.trackSet then s.tracks.length else 1
  let instrumentCount := if s.instrumentSet then s.instruments.length else defaultInstruments
  let miscCount := if s.miscellaneousSet then s.miscellaneous.length else 0
  { fileFormat := fmt
    trackSet := true, instrumentSet := true, miscellaneousSet := true
    tracks := (s.tracks.take trackCount).map fun tr =>
      if !tr.markersSet ∧ !copyMarks then { tr with markers := [] } else tr
    instruments := s.instruments.take instrumentCount
    miscellaneous := s.miscellaneous.take miscCount }

/-- The first lines of every `completeSetup` (e.g. NeXT.cpp:219-227): one track, found by its id. -/
def theTrack (s : Setup) : Option TrackSetup :=
  if s.trackSet ∧ s.tracks.length ≠ 1 then none else s.tracks.find? (·.id == DEFAULT_TRACK)

/-- The caller's setup with its track's format replaced (`track->f...` assignments in `completeSetup`). -/
def Setup.withFormat (s : Setup) (f : AFmt) : Setup := s.onTrack DEFAULT_TRACK fun tr => { tr with f := f }

/-- The tests that end `completeSetup` for formats without metadata (e.g. NeXT.cpp:264-286). -/
def noMetadata (s : Setup) (tr : TrackSetup) : Bool :=
  !tr.aesDataSet && !(tr.markersSet && tr.markers.length != 0) &&
  !(s.instrumentSet && s.instruments.length != 0) && !(s.miscellaneousSet && s.miscellaneous.length != 0)

/-- NeXT.cpp:217-289. Results are the caller's setup afterwards and the completed copy. -/
def completeNeXT (s : Setup) : Setup × Option Setup :=
  match theTrack s with
  | none => (s, none)
  | some tr =>
    let f := if tr.f.isUnsigned then (setSampleFormat tr.f TWOSCOMP tr.f.sampleWidth).2 else tr.f
    let s := s.withFormat f
    if f.isSigned ∧ f.sampleWidth ≠ 8 ∧ f.sampleWidth ≠ 16 ∧ f.sampleWidth ≠ 24 ∧ f.sampleWidth ≠ 32 then (s, none)
    else if f.compression ≠ NONE ∧ f.compression ≠ ULAW ∧ f.compression ≠ ALAW then (s, none)
    else if f.isUncompressed ∧ tr.byteOrderSet ∧ f.byteOrder ≠ BIG ∧ f.orderMatters then (s, none)
    else
      let s := if f.isUncompressed then s.withFormat { f with byteOrder := BIG } else s
      if !noMetadata s tr then (s, none) else (s, some (filesetupCopy s .next 0 false))

/-- AVR.cpp:169-245 -/
def completeAVR (s : Setup) : Setup × Option Setup :=
  match theTrack s with
  | none => (s, none)
  | some tr =>
    if tr.f.sampleFormat ≠ UNSIGNED ∧ tr.f.sampleFormat ≠ TWOSCOMP then (s, none)
    else if tr.f.sampleWidth ≠ 8 ∧ tr.f.sampleWidth ≠ 16 then (s, none)
    else if tr.f.compression ≠ NONE then (s, none)
    else if tr.f.byteOrder ≠ BIG ∧ tr.byteOrderSet then (s, none)
    else
      let s := s.withFormat { tr.f with byteOrder := BIG }
      if !noMetadata s tr then (s, none) else (s, some (filesetupCopy s .avr 0 false))

/-- AIFF.cpp:599-706 (for both `AF_FILE_AIFF` and `AF_FILE_AIFFC`; the copy's file format is always AIFF). -/
def completeAIFF (s : Setup) : Setup × Option Setup :=
  let isAIFF := s.fileFormat = .aiff
  match theTrack s with
  | none => (s, none)
  | some tr =>
    if tr.sampleFormatSet ∧ tr.f.sampleFormat = UNSIGNED then (s, none)
    else if tr.sampleFormatSet ∧ isAIFF ∧ tr.f.sampleFormat ≠ TWOSCOMP then (s, none)
    else
      let f := if tr.sampleFormatSet then tr.f else (setSampleFormat tr.f TWOSCOMP tr.f.sampleWidth).2
      let s := s.withFormat f
      if f.sampleFormat = TWOSCOMP ∧ (f.sampleWidth < 1 ∨ f.sampleWidth > 32) then (s, none)
      else if isAIFF ∧ f.compression ≠ NONE then (s, none)
      else if f.compression ≠ NONE ∧ f.compression ≠ ULAW ∧ f.compression ≠ ALAW ∧ f.compression ≠ IMA then (s, none)
      else if f.isUncompressed ∧ tr.byteOrderSet ∧ f.byteOrder ≠ BIG ∧ f.orderMatters then (s, none)
      else
        let s := if f.isUncompressed then s.withFormat { f with byteOrder := BIG } else s
        if s.instrumentSet ∧ s.instruments.length ≠ 0 ∧ s.instruments.length ≠ 1 then (s, none)
        else if s.instrumentSet ∧ s.instruments.head?.any (·.loops.length != 2) then (s, none)
        else if s.miscellaneousSet ∧ s.miscellaneous.any (fun m => !([201, 202, 203, 204, 205, 206].contains m.type)) then
          (s, none)
        else (s, some (filesetupCopy s .aiff 1 true))

/-- WAVE.cpp:828-1027. The loop-related tests need `loopSet`, which is always false. -/
def completeWAVE (s : Setup) : Setup × Option Setup :=
  match theTrack s with
  | none => (s, none)
  | some tr =>
    let w := tr.f.sampleWidth
    -- the new format, or `none` for a refusal
    let f? : Option AFmt :=
      if !tr.f.isUncompressed then
        if !tr.sampleFormatSet then some (setSampleFormat tr.f TWOSCOMP 16).2
        else some (setSampleFormat tr.f tr.f.sampleFormat w).2
      else if tr.sampleFormatSet then
        if tr.f.sampleFormat = FLOAT then
          if tr.sampleWidthSet ∧ w ≠ 32 then some (setSampleFormat tr.f FLOAT 32).2 else some tr.f
        else if tr.f.sampleFormat = DOUBLE then
          if tr.sampleWidthSet ∧ w ≠ 64 then some (setSampleFormat tr.f DOUBLE 64).2 else some tr.f
        else if tr.f.sampleFormat = UNSIGNED then
          if tr.sampleWidthSet then
            if w < 1 ∨ w > 32 then none
            else if w > 8 then some (setSampleFormat tr.f TWOSCOMP w).2 else some tr.f
          else some (setSampleFormat tr.f UNSIGNED 8).2
        else if tr.f.sampleFormat = TWOSCOMP then
          if tr.sampleWidthSet then
            if w < 1 ∨ w > 32 then none
            else if w ≤ 8 then some (setSampleFormat tr.f UNSIGNED w).2 else some tr.f
          else some (setSampleFormat tr.f TWOSCOMP 16).2
        else some tr.f
      else if !tr.sampleWidthSet then some { tr.f with sampleWidth := 16, sampleFormat := TWOSCOMP }
      else if w < 1 ∨ w > 32 then none
      else if w > 8 then some { tr.f with sampleFormat := TWOSCOMP } else some { tr.f with sampleFormat := UNSIGNED }
    match f? with
    | none => (s, none)
    | some f =>
      let s := s.withFormat f
      if f.compression ≠ NONE ∧ f.compression ≠ ULAW ∧ f.compression ≠ ALAW ∧ f.compression ≠ IMA ∧
          f.compression ≠ MSADPCM then (s, none)
      else if f.isUncompressed ∧ tr.byteOrderSet ∧ f.byteOrder ≠ LITTLE ∧ f.orderMatters then (s, none)
      else
        let s := if f.isUncompressed then s.withFormat { f with byteOrder := LITTLE } else s
        if tr.aesDataSet then (s, none)
        else if s.instrumentSet ∧ s.instruments.length > 1 then (s, none)
        else if s.miscellaneousSet ∧ s.miscellaneous.any (fun m => !([201, 202, 203, 211, 212, 210].contains m.type)) then
          (s, none)
        else (s, some (filesetupCopy s .wave 0 false))

/-- Raw.cpp:137-191: the copy is made by hand, with no markers, instruments or miscellaneous data. -/
def completeRaw (s : Setup) : Setup × Option Setup :=
  match theTrack s with
  | none => (s, none)
  | some tr =>
    if !noMetadata s tr then (s, none)
    else (s, some { fileFormat := .raw, trackSet := true, instrumentSet := true, miscellaneousSet := true
                    tracks := (s.tracks.take 1).map fun tr => { tr with markers := [] }
                    instruments := [], miscellaneous := [] })

/-- VOC.cpp:100-177 -/
def completeVOC (s : Setup) : Setup × Option Setup :=
  match theTrack s with
  | none => (s, none)
  | some tr =>
    if tr.sampleFormatSet ∧ !tr.f.isInteger then (s, none)
    else if tr.sampleFormatSet ∧ ((tr.f.isSigned ∧ tr.f.sampleWidth ≠ 16) ∨ (tr.f.isUnsigned ∧ tr.f.sampleWidth ≠ 8)) then
      (s, none)
    else
      let f := if tr.sampleFormatSet then tr.f else (setSampleFormat tr.f TWOSCOMP tr.f.sampleWidth).2
      let s := s.withFormat f
      if f.isUncompressed ∧ tr.byteOrderSet ∧ f.byteOrder ≠ LITTLE ∧ f.orderMatters then (s, none)
      else
        let s := if f.isUncompressed then s.withFormat { f with byteOrder := LITTLE } else s
        if f.compression ≠ NONE ∧ f.compression ≠ ULAW ∧ f.compression ≠ ALAW then (s, none)
        else if !noMetadata s tr then (s, none) else (s, some (filesetupCopy s .voc 1 true))

/-- CAF.cpp:177-251, on a host of byte order `h`. -/
def completeCAF (h : Endian) (s : Setup) : Setup × Option Setup :=
  match theTrack s with
  | none => (s, none)
  | some tr =>
    if tr.sampleFormatSet ∧ tr.f.isUnsigned then (s, none)
    else
      let f := if tr.sampleFormatSet then tr.f else (setSampleFormat tr.f TWOSCOMP tr.f.sampleWidth).2
      let s := s.withFormat f
      if f.isSigned ∧ (f.sampleWidth < 1 ∨ f.sampleWidth > 32) then (s, none)
      else
        let f := if !tr.byteOrderSet then { f with byteOrder := native h } else f
        let s := s.withFormat f
        if f.compression ≠ NONE ∧ f.compression ≠ ULAW ∧ f.compression ≠ ALAW ∧ f.compression ≠ IMA ∧
            f.compression ≠ ALAC then (s, none)
        else if !noMetadata s tr then (s, none) else (s, some (filesetupCopy s .caf 1 true))

/-- IFF.cpp:245-316: miscellaneous data is not tested. -/
def completeIFF (s : Setup) : Setup × Option Setup :=
  match theTrack s with
  | none => (s, none)
  | some tr =>
    if tr.sampleFormatSet ∧ tr.f.sampleFormat ≠ TWOSCOMP then (s, none)
    else if tr.sampleFormatSet ∧ tr.f.sampleWidth ≠ 8 then (s, none)
    else if tr.channelCountSet ∧ tr.f.channels ≠ 1 then (s, none)
    else if tr.f.compression ≠ NONE then (s, none)
    else
      let s := s.withFormat (setSampleFormat { tr.f with byteOrder := BIG, channels := 1 } TWOSCOMP 8).2
      if tr.markersSet ∧ tr.markers.length ≠ 0 then (s, none)
      else if tr.aesDataSet then (s, none)
      else if s.instrumentSet ∧ s.instruments.length ≠ 0 then (s, none)
      else (s, some (filesetupCopy s .iff 0 true))

/-- IRCAM.cpp:125-216 -/
def completeIRCAM (s : Setup) : Setup × Option Setup :=
  match theTrack s with
  | none => (s, none)
  | some tr =>
    let w := tr.f.sampleWidth
    if tr.sampleFormatSet ∧ tr.f.isUnsigned then (s, none)
    else if tr.sampleFormatSet ∧ tr.f.isSigned ∧ w ≠ 8 ∧ w ≠ 16 ∧ w ≠ 24 ∧ w ≠ 32 then (s, none)
    else if tr.rateSet ∧ tr.f.rate ≤ 0 then (s, none)
    else if tr.channelCountSet ∧ tr.f.channels ≠ 1 ∧ tr.f.channels ≠ 2 ∧ tr.f.channels ≠ 4 then (s, none)
    else if tr.compressionSet ∧ tr.f.compression ≠ NONE ∧ tr.f.compression ≠ ULAW ∧ tr.f.compression ≠ ALAW then (s, none)
    else if !noMetadata s tr then (s, none) else (s, some (filesetupCopy s .ircam 0 true))

/-- NIST.cpp:78-160 -/
def completeNIST (s : Setup) : Setup × Option Setup :=
  match theTrack s with
  | none => (s, none)
  | some tr =>
    let w := tr.f.sampleWidth
    if tr.sampleFormatSet ∧ tr.f.sampleFormat = TWOSCOMP ∧ (w < 1 ∨ w > 16) then (s, none)
    else if tr.sampleFormatSet ∧ tr.f.sampleFormat = UNSIGNED then (s, none)
    else if tr.sampleFormatSet ∧ (tr.f.sampleFormat = FLOAT ∨ tr.f.sampleFormat = DOUBLE) then (s, none)
    else if tr.rateSet ∧ tr.f.rate ≤ 0 then (s, none)
    else if tr.compressionSet ∧ tr.f.compression ≠ NONE ∧ tr.f.compression ≠ ULAW ∧ tr.f.compression ≠ ALAW then (s, none)
    else if !noMetadata s tr then (s, none) else (s, some (filesetupCopy s .nist 0 true))

/-- SampleVision.cpp:86-155 -/
def completeSMP (s : Setup) : Setup × Option Setup :=
  match theTrack s with
  | none => (s, none)
  | some tr =>
    if tr.sampleFormatSet ∧ (!tr.f.isSigned ∨ tr.f.sampleWidth ≠ 16) then (s, none)
    else
      let f := if tr.sampleFormatSet then tr.f else (setSampleFormat tr.f TWOSCOMP tr.f.sampleWidth).2
      let s := s.withFormat { f with byteOrder := LITTLE }
      if tr.compressionSet ∧ !f.isUncompressed then (s, none)
      else if !noMetadata s tr then (s, none) else (s, some (filesetupCopy s .smp 1 true))

/-- The `completesetup` entries of units.cpp:56-261. The library is one built without FLAC (FLACFile.cpp:281-285); `completeFLAC` in `Verif.Model.FLAC` is the other case. -/
def complete (h : Endian) (s : Setup) : Setup × Option Setup :=
  match s.fileFormat with
  | .raw => completeRaw s
  | .aiff | .aiffc => completeAIFF s
  | .next => completeNeXT s
  | .wave => completeWAVE s
  | .ircam => completeIRCAM s
  | .avr => completeAVR s
  | .iff => completeIFF s
  | .smp => completeSMP s
  | .voc => completeVOC s
  | .nist => completeNIST s
  | .caf => completeCAF h s
  | .mpeg1 | .sd1 | .sd2 | .sf2 | .flac => (s, none)

/-! ## Opening for writing -/

/-- What a handle opened for writing holds: the metadata, each track's file format, virtual format and marker
names. -/
structure Opened where
  handle : Meta.Handle
  f : List AFmt
  v : List AFmt
  names : List (List (List Byte × List Byte))
  deriving DecidableEq

/-- The instrument parameter table of a format (units.cpp). -/
def FileFormat.family : FileFormat → Meta.Family
  | .aiff | .aiffc => .aiff
  | .wave => .wave
  | _ => .other

/-- Default values in table order (AIFF.cpp:99-110, WAVE.cpp:96-105). -/
def paramDefaults : Meta.Family → List (BitVec 64)
  | .aiff => [60, 0, 1, 127, 0, 127, 0, 0, 0]
  | .wave => [60, 0, 1, 127, 0, 127, 0]
  | .other => []

/-- `Track::copyMarkers` (Track.cpp:145-171). `Marker::id` is a `short` (Marker.h:32). -/
def copyMarkers (tr : TrackSetup) : List Meta.Marker :=
  tr.markers.map fun m => { id := wrapS 16 m.id, position := 0 }

/-- `_AFfilehandle::initFromSetup` (FileHandle.cpp:222-345). -/
def initFromSetup (s : Setup) : Meta.Handle :=
  { access := .write
    family := s.fileFormat.family
    tracks := s.tracks.map fun tr =>
      { id := tr.id, markers := copyMarkers tr, hasAES := tr.aesDataSet, aes := List.replicate 24 0 }
    instruments := s.instruments.map fun inst =>
      { id := inst.id
        loops := inst.loops.mapIdx fun j l =>
          { id := l, mode := 0, count := 0, beginMarker := 2 * j + 1, endMarker := 2 * j + 2, trackid := DEFAULT_TRACK }
        values := paramDefaults s.fileFormat.family }
    misc := s.miscellaneous.map fun m => { id := m.id, type := m.type, size := m.size, buffer := none, position := 0 } }

/-- `_afOpenFile` for writing (openclose.cpp:268-398): the caller's setup afterwards, and the handle if the setup
could be completed. (`writeInit` may still fail when the file cannot be written.) -/
def openWrite (h : Endian) (s : Setup) : Setup × Option Opened :=
  let user := (s.tracks.head?).map (·.f)
  let (s', c) := complete h s
  (s', c.map fun c =>
    { handle := initFromSetup c
      f := c.tracks.map (·.f)
      v := c.tracks.map fun tr =>
        let v := match user with
          | none => tr.f
          | some u => { tr.f with sampleFormat := u.sampleFormat, pcm := u.pcm, rate := u.rate }
        { v with compression := NONE, byteOrder := native h }
      names := c.tracks.map fun tr => tr.markers.map fun m => (m.name, m.comment) })

/-- `afGetInstIDs` (Instrument.cpp:99-109) -/
def getInstIDs (h : Meta.Handle) : List Int := h.instruments.map (·.id)
/-- `afGetMiscIDs` (Miscellaneous.cpp:74-88) -/
def getMiscIDs (h : Meta.Handle) : List Int := h.misc.map (·.id)

/-- `afGetMarkName`, `afGetMarkComment` (Marker.cpp:154-184): `none` is a null pointer. -/
def getMarkText (o : Opened) (t m : Int) : Option (List Byte × List Byte) :=
  match (o.handle.tracks.zip o.names).find? (·.1.id == t) with
  | none => none
  | some (tr, ns) => ((tr.markers.zip ns).find? (·.1.id == m)).map (·.2)

/-! ## Changing the virtual format -/

/-- `afSetVirtualSampleFormat` (format.cpp:267-283): return value and virtual format. -/
def setVirtualSampleFormat (v : AFmt) (sf sw : Int) : Int × AFmt :=
  let r := setSampleFormat v sf sw
  (if r.1 then 0 else -1, r.2)

/-- `afSetVirtualChannels` (format.cpp:297-315): no test. -/
def setVirtualChannels (v : AFmt) (n : Int) : Int × AFmt := (0, { v with channels := n })

/-- `afSetVirtualRate` (format.cpp:329-348). -/
def setVirtualRate (v : AFmt) (r : Rat) : Int × AFmt := if r < 0 then (-1, v) else (0, { v with rate := r })

/-- `afSetVirtualByteOrder` (format.cpp:151-171). -/
def setVirtualByteOrder (v : AFmt) (o : Int) : Int × AFmt :=
  if o ≠ BIG ∧ o ≠ LITTLE then (-1, v) else (0, { v with byteOrder := o })

end AF.Setup
