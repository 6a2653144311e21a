import Verif.Model.Heap
/-!
# Model: the calls on setups and handles, with pointers

The decisions a call takes on scalar values are those of `Model/Setup.lean`; what is modelled here is which memory it uses.
-/
namespace AF.Heap
open AF.Setup (AFmt)

/-! ## Setups -/

/-- `_AFfilesetup::getTrack` (Setup.cpp:532-542): a pointer into the array of tracks is the array and an index. -/
def getTrack (s : Ptr) (t : Int) : M (Ptr × Option Nat) := do
  let r : SetupRec ← load s
  let i ← findAt (ρ := TrackRec) r.tracks r.trackCount (·.fields.id == t)
  return (r.tracks, i)

/-- Three assignments made for each marker (Setup.cpp:131-141, Marker.cpp:67-70). The first store is to a record of zeros. -/
def newMarker (p : Ptr) (j : Nat) (id : Int) : M Unit := do
  setAt (ρ := MarkerRec) p j fun m => { m with id := id }
  let q ← alloc ([] : List Byte)
  setAt (ρ := MarkerRec) p j fun m => { m with name := q }
  let q ← alloc ([] : List Byte)
  setAt (ρ := MarkerRec) p j fun m => { m with comment := q }

/-- `_af_tracksetup_new` (Setup.cpp:101-148), for `n` > 0 tracks. -/
def tracksetupNew (h : Endian) (n : Nat) : M Ptr := do
  let p ← alloc (List.replicate n (⟨Setup.newTrack h 0, 0, 0⟩ : TrackRec))
  forRange n fun i => do
    setAt (ρ := TrackRec) p i fun _ => ⟨{ Setup.newTrack h i with markers := [] }, 4, 0⟩
    let q ← calloc 4 ({} : MarkerRec)
    setAt (ρ := TrackRec) p i fun r => { r with markers := q }
    forRange 4 fun j => newMarker q j ((j : Int) + 1)
  return p

/-- `_af_instsetup_new` (Setup.cpp:150-179) -/
def instsetupNew (n : Nat) : M Ptr :=
  if n = 0 then pure 0 else do
    let p ← alloc (List.replicate n ({} : InstRec))
    forRange n fun i => do
      setAt (ρ := InstRec) p i fun _ => { id := Setup.DEFAULT_INST + i, loopCount := 2, loops := 0, loopSet := false }
      let q ← calloc 2 (0 : Int)
      setAt (ρ := InstRec) p i fun r => { r with loops := q }
      forRange 2 fun j => setAt (ρ := Int) q j fun _ => (j : Int) + 1
    return p

/-- `afNewFileSetup` (Setup.cpp:181-208) -/
def newFileSetup (h : Endian) : M Ptr := do
  let r : SetupRec :=
    { fileFormat := if h = .big then .aiffc else .wave
      trackSet := false, instrumentSet := false, miscellaneousSet := false
      trackCount := 1, tracks := 0, instrumentCount := 1, instruments := 0, miscellaneousCount := 0, miscellaneous := 0 }
  let s ← alloc r
  let p ← tracksetupNew h 1
  let r := { r with tracks := p }
  store s r
  let q ← instsetupNew 1
  store s { r with instruments := q }
  return s

/-- `_af_setup_free_markers` (Setup.cpp:213-228) -/
def setupFreeMarkers (tracks : Ptr) (i : Nat) : M Unit := do
  let tr : TrackRec ← getAt tracks i
  onlyIf (tr.markerCount ≠ 0) do
    forRange tr.markerCount fun j => do
      let m : MarkerRec ← getAt tr.markers j
      free m.name
      free m.comment
    free tr.markers
  setAt (ρ := TrackRec) tracks i fun tr => { tr with markers := 0, markerCount := 0 }

/-- `_af_setup_free_tracks` (Setup.cpp:233-247) -/
def setupFreeTracks (s : Ptr) : M Unit := do
  let r : SetupRec ← load s
  onlyIf (r.tracks ≠ 0) do
    forRange r.trackCount fun i => setupFreeMarkers r.tracks i
    free r.tracks
  store s { r with tracks := 0, trackCount := 0 }

/-- `InstrumentSetup::freeLoops` (Instrument.cpp:69-75) -/
def freeLoops (p : Ptr) (i : Nat) : M Unit := do
  let r : InstRec ← getAt p i
  onlyIf (r.loops ≠ 0) (free r.loops)
  setAt (ρ := InstRec) p i fun r => { r with loops := 0, loopCount := 0 }

/-- `_af_setup_free_instruments` (Setup.cpp:252-264) -/
def setupFreeInstruments (s : Ptr) : M Unit := do
  let r : SetupRec ← load s
  onlyIf (r.instruments ≠ 0) do
    forRange r.instrumentCount fun i => freeLoops r.instruments i
    free r.instruments
  store s { r with instruments := 0, instrumentCount := 0 }

/-- `afFreeFileSetup` (Setup.cpp:266-283) -/
def freeFileSetup (s : Ptr) : M Unit := do
  setupFreeTracks s
  setupFreeInstruments s
  let r : SetupRec ← load s
  onlyIf (r.miscellaneousCount ≠ 0) do
    free r.miscellaneous
    store s { r with miscellaneous := 0, miscellaneousCount := 0 }
  free s

/-- The calls that change only scalar fields of a track: which track, and the change. -/
def scalar : Setup.Op → Option (Int × (Setup.TrackSetup → Setup.TrackSetup))
  | .channels t n => some (t, fun tr =>
      if n < 1 then tr else { tr with f := { tr.f with channels := n }, channelCountSet := true })
  | .sampleFormat t f w => some (t, fun tr =>
      { tr with f := (Setup.setSampleFormat tr.f f w).2, sampleFormatSet := true, sampleWidthSet := true })
  | .byteOrder t o => some (t, fun tr =>
      if o ≠ Setup.BIG ∧ o ≠ Setup.LITTLE then tr else { tr with f := { tr.f with byteOrder := o }, byteOrderSet := true })
  | .rate t r => some (t, fun tr => if r ≤ 0 then tr else { tr with f := { tr.f with rate := r }, rateSet := true })
  | .dataOffset t o => some (t, fun tr => if o < 0 then tr else { tr with dataOffset := o, dataOffsetSet := true })
  | .frameCount t n => some (t, fun tr => if n < 0 then tr else { tr with frameCount := n, frameCountSet := true })
  | .compression t c => some (t, fun tr =>
      match Setup.compressionUnit c with
      | none => tr
      | some _ => { tr with f := { tr.f with compression := c }, compressionSet := true })
  | .pcmMapping t p => some (t, fun tr => { tr with f := { tr.f with pcm := p } })
  | .aes t on => some (t, fun tr => { tr with aesDataSet := on })
  | _ => none

/-- Such a call, e.g. `afInitChannels` (Setup.cpp:308-326). -/
def setScalar (s : Ptr) (t : Int) (g : Setup.TrackSetup → Setup.TrackSetup) : M Unit := do
  match ← getTrack s t with
  | (_, none) => return
  | (p, some i) => setAt (ρ := TrackRec) p i fun tr => { tr with fields := g tr.fields }

/-- `afInitMarkIDs` (Marker.cpp:42-74) -/
def initMarkIDs (s : Ptr) (t : Int) (ids : List Int) : M Unit := do
  match ← getTrack s t with
  | (_, none) => return
  | (p, some i) => do
    let tr : TrackRec ← getAt p i
    onlyIf (tr.markers ≠ 0) do
      forRange tr.markerCount fun j => do
        let m : MarkerRec ← getAt tr.markers j
        onlyIf (m.name ≠ 0) (free m.name)
        onlyIf (m.comment ≠ 0) (free m.comment)
      free tr.markers
    let q ← calloc ids.length ({} : MarkerRec)
    setAt (ρ := TrackRec) p i fun tr => { tr with markers := q, markerCount := ids.length }
    forRange ids.length fun j => newMarker q j (ids.getD j 0)
    setAt (ρ := TrackRec) p i fun tr => { tr with fields := { tr.fields with markersSet := true } }

/-- `afInitMarkName` (Marker.cpp:76-119) -/
def initMarkName (s : Ptr) (t m : Int) (name : List Byte) : M Unit := do
  match ← getTrack s t with
  | (_, none) => return
  | (p, some i) => do
    let tr : TrackRec ← getAt p i
    match ← findAt (ρ := MarkerRec) tr.markers tr.markerCount (·.id == m) with
    | none => return
    | some j => do
      let mk : MarkerRec ← getAt tr.markers j
      onlyIf (mk.name ≠ 0) (free mk.name)
      let q ← alloc (name.take 255)
      setAt (ρ := MarkerRec) tr.markers j fun mk => { mk with name := q }

/-- `afInitMarkComment` (Marker.cpp:121-152) -/
def initMarkComment (s : Ptr) (t m : Int) (comment : List Byte) : M Unit := do
  match ← getTrack s t with
  | (_, none) => return
  | (p, some i) => do
    let tr : TrackRec ← getAt p i
    match ← findAt (ρ := MarkerRec) tr.markers tr.markerCount (·.id == m) with
    | none => return
    | some j => do
      let mk : MarkerRec ← getAt tr.markers j
      onlyIf (mk.comment ≠ 0) (free mk.comment)
      let q ← alloc comment
      setAt (ρ := MarkerRec) tr.markers j fun mk => { mk with comment := q }

/-- `afInitInstIDs` (Instrument.cpp:80-97) -/
def initInstIDs (s : Ptr) (ids : List Int) : M Unit := do
  if !Setup.uniqueIds ids then return
  setupFreeInstruments s
  let r : SetupRec ← load s
  store s { r with instrumentCount := ids.length, instrumentSet := true }
  let q ← instsetupNew ids.length
  let r : SetupRec ← load s
  store s { r with instruments := q }
  forRange ids.length fun i => setAt (ρ := InstRec) q i fun x => { x with id := ids.getD i 0 }

/-- `InstrumentSetup::allocateLoops` (Instrument.cpp:57-67) -/
def allocateLoops (p : Ptr) (i n : Nat) : M Bool := do
  freeLoops p i
  let q ← calloc n (0 : Int)
  setAt (ρ := InstRec) p i fun r => { r with loops := q }
  if q ≠ 0 then
    setAt (ρ := InstRec) p i fun r => { r with loopCount := n }
    return true
  else return false

/-- `afInitLoopIDs` (Loop.cpp:37-55) -/
def initLoopIDs (s : Ptr) (inst : Int) (ids : List Int) : M Unit := do
  if !Setup.uniqueIds ids then return
  let r : SetupRec ← load s
  match ← findAt (ρ := InstRec) r.instruments r.instrumentCount (·.id == inst) with
  | none => return
  | some i => do
    freeLoops r.instruments i
    if ← allocateLoops r.instruments i ids.length then
      let x : InstRec ← getAt r.instruments i
      forRange ids.length fun j => setAt (ρ := Int) x.loops j fun _ => ids.getD j 0
    else return

/-- `afInitMiscIDs` (Miscellaneous.cpp:41-72) -/
def initMiscIDs (s : Ptr) (ids : List Int) : M Unit := do
  let r : SetupRec ← load s
  onlyIf (r.miscellaneous ≠ 0) (free r.miscellaneous)
  let q ← calloc ids.length (⟨0, 0, 0⟩ : Setup.MiscSetup)
  store s { r with miscellaneousCount := ids.length, miscellaneous := q, miscellaneousSet := true }
  forRange ids.length fun i => setAt (ρ := Setup.MiscSetup) q i fun _ => ⟨ids.getD i 0, 0, 0⟩

/-- `afInitMiscType`, `afInitMiscSize` (Miscellaneous.cpp:90-98, 111-119) -/
def setMisc (s : Ptr) (m : Int) (g : Setup.MiscSetup → Setup.MiscSetup) : M Unit := do
  let r : SetupRec ← load s
  match ← findAt (ρ := Setup.MiscSetup) r.miscellaneous r.miscellaneousCount (·.id == m) with
  | none => return
  | some i => setAt r.miscellaneous i g

/-- `afInitFileFormat` (Setup.cpp:285-306) -/
def initFileFormat (s : Ptr) (filefmt : Int) : M Unit := do
  if filefmt < 0 ∨ filefmt ≥ 17 then return
  match Setup.FileFormat.all[filefmt.toNat]? with
  | none => return
  | some u =>
    if !u.implemented then return
    let r : SetupRec ← load s
    store s { r with fileFormat := u }

/-- One call on a setup. -/
def setupCall (s : Ptr) (op : Setup.Op) : M Unit :=
  match scalar op with
  | some (t, g) => setScalar s t g
  | none =>
    match op with
    | .fileFormat f => initFileFormat s f
    | .markIDs t ids => initMarkIDs s t ids
    | .markName t m name => initMarkName s t m name
    | .markComment t m c => initMarkComment s t m c
    | .instIDs ids => initInstIDs s ids
    | .loopIDs i ids => initLoopIDs s i ids
    | .miscIDs ids => initMiscIDs s ids
    | .miscType m type => setMisc s m fun x => { x with type := type }
    | .miscSize m size => setMisc s m fun x => { x with size := size }
    | _ => pure ()

/-! ## Copies of setups -/

/-- The default setup of a file format (e.g. NeXT.cpp:50-72), which is copied first: one track, so many instruments, no
miscellaneous data and all flags set. -/
def defaultSetup (fmt : Setup.FileFormat) (instruments : Nat) : SetupRec :=
  { fileFormat := fmt, trackSet := true, instrumentSet := true, miscellaneousSet := true
    trackCount := 1, tracks := 0, instrumentCount := instruments, instruments := 0, miscellaneousCount := 0, miscellaneous := 0 }

/-- `_af_filesetup_copy` (Setup.cpp:440-530). -/
def filesetupCopy (s : Ptr) (fmt : Setup.FileFormat) (defaultInstruments : Nat) (copyMarks : Bool) : M Ptr := do
  let n ← alloc (defaultSetup fmt defaultInstruments)
  let r : SetupRec ← load s
  let trackCount := if r.trackSet then r.trackCount else 1
  let pt ← alloccopy TrackRec trackCount r.tracks
  let instrumentCount := if r.instrumentSet then r.instrumentCount else defaultInstruments
  let pi ← alloccopy InstRec instrumentCount r.instruments
  let miscCount := if r.miscellaneousSet then r.miscellaneousCount else 0
  let pm ← alloccopy Setup.MiscSetup miscCount r.miscellaneous
  store n { defaultSetup fmt defaultInstruments with
    trackCount := trackCount, tracks := pt, instrumentCount := instrumentCount, instruments := pi
    miscellaneousCount := miscCount, miscellaneous := pm }
  forRange r.trackCount fun i => do
    let old : TrackRec ← getAt r.tracks i
    if !old.fields.markersSet ∧ !copyMarks then
      setAt (ρ := TrackRec) pt i fun tr => { tr with markers := 0, markerCount := 0 }
    else
      let q ← alloccopy MarkerRec old.markerCount old.markers
      setAt (ρ := TrackRec) pt i fun tr => { tr with markers := q, markerCount := old.markerCount }
      forRange old.markerCount fun j => do
        let m : MarkerRec ← getAt old.markers j
        let text : List Byte ← load m.name
        let a ← alloc text
        setAt (ρ := MarkerRec) q j fun x => { x with name := a }
        let text : List Byte ← load m.comment
        let a ← alloc text
        setAt (ρ := MarkerRec) q j fun x => { x with comment := a }
  forRange instrumentCount fun i => do
    let old : InstRec ← getAt r.instruments i
    let q ← alloccopy Int old.loopCount old.loops
    setAt (ρ := InstRec) pi i fun x => { x with loops := q }
  return n

/-- The end of `RawFile::completeSetup` (Raw.cpp:178-191) -/
def rawCopy (s : Ptr) : M Ptr := do
  let n ← alloc (defaultSetup .raw 0)
  let r : SetupRec ← load s
  let tr : TrackRec ← getAt r.tracks 0
  let p ← alloc [{ tr with markerCount := 0, markers := 0 }]
  store n { defaultSetup .raw 0 with tracks := p }
  return n

end AF.Heap
