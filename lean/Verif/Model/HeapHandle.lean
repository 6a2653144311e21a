import Verif.Model.HeapCalls
import Verif.Model.HeapValue
/-!
# Model: handles in memory

A file is opened for writing, its metadata are changed, it is closed. What lies in memory beside the blocks modelled here (the
`File`, the file name, the modules, the packet table, the codec data of ALAC) is not followed.
-/
namespace AF.Heap
open AF.Setup (AFmt)

/-! ## What a call reads -/

/-- The elements of an array, each with what it points to. -/
def readEach {ρ ν : Type} (f : ρ → M ν) : List ρ → M (List ν)
  | [] => pure []
  | r :: l => do
    let v ← f r
    let vs ← readEach f l
    return v :: vs

def readArray {ρ ν : Type} [Content (List ρ)] (f : ρ → M ν) (p : Ptr) (n : Nat) : M (List ν) :=
  if n = 0 then pure [] else do
    let l : List ρ ← load p
    if n ≤ l.length then readEach f (l.take n) else fault

/-- Everything a `completeSetup` function can look at. -/
def readSetup (s : Ptr) : M Setup.Setup := do
  let r : SetupRec ← load s
  let tracks ← readArray (fun tr : TrackRec => do
    let markers ← readArray (fun m : MarkerRec => do
      let name ← load m.name
      let comment ← load m.comment
      return (⟨m.id, name, comment⟩ : Setup.MarkerSetup)) tr.markers tr.markerCount
    return { tr.fields with markers := markers }) r.tracks r.trackCount
  let instruments ← readArray (fun x : InstRec => do
    let loops ← readArray (fun l : Int => pure l) x.loops x.loopCount
    return (⟨x.id, loops, x.loopSet⟩ : Setup.InstrumentSetup)) r.instruments r.instrumentCount
  let misc ← readArray (fun m : Setup.MiscSetup => pure m) r.miscellaneous r.miscellaneousCount
  return { fileFormat := r.fileFormat, trackSet := r.trackSet, instrumentSet := r.instrumentSet
           miscellaneousSet := r.miscellaneousSet, tracks := tracks, instruments := instruments, miscellaneous := misc }

/-! ## Opening for writing -/

/-- The copy that `WAVEFile::completeSetup` returns (WAVE.cpp:1016-1026): the loops of the copy are freed, and the pointer to
them is kept, if a flag is set. -/
def waveCopy (s : Ptr) : M Ptr := do
  let n ← filesetupCopy s .wave 0 false
  let r : SetupRec ← load s
  if r.instrumentSet ∧ r.instrumentCount > 0 then
    let x : InstRec ← getAt r.instruments 0
    onlyIf (x.loopSet = true) do
      let c : SetupRec ← load n
      let y : InstRec ← getAt c.instruments 0
      free y.loops
      setAt (ρ := InstRec) c.instruments 0 fun y => { y with loopCount := 0 }
    return n
  else return n

/-- The end of each `completeSetup` (AIFF.cpp:705, NeXT.cpp:291, WAVE.cpp:1016-1026, IRCAM.cpp:213, AVR.cpp:240, IFF.cpp:315,
SampleVision.cpp:149, VOC.cpp:179, NIST.cpp:158, CAF.cpp:248, Raw.cpp:178-191). The formats that cannot be written are not
reached. -/
def copySetup (s : Ptr) : Setup.FileFormat → M Ptr
  | .aiff | .aiffc => filesetupCopy s .aiff 1 true
  | .next => filesetupCopy s .next 0 false
  | .wave => waveCopy s
  | .ircam => filesetupCopy s .ircam 0 true
  | .avr => filesetupCopy s .avr 0 false
  | .iff => filesetupCopy s .iff 0 true
  | .smp => filesetupCopy s .smp 1 true
  | .voc => filesetupCopy s .voc 1 true
  | .nist => filesetupCopy s .nist 0 true
  | .caf => filesetupCopy s .caf 1 true
  | .raw => rawCopy s
  | _ => pure 0

/-- `Track::Track` (Track.cpp:62-86). The formats, which are left uninitialised, are some value. -/
def newHTrack : HTrackRec :=
  { id := Setup.DEFAULT_TRACK, f := ⟨0, 0, 0, 0, ⟨0, 0, 0, 0⟩, 0, 0⟩, fparams := 0, v := ⟨0, 0, 0, 0, ⟨0, 0, 0, 0⟩, 0, 0⟩, vparams := 0
    matrix := 0, markerCount := 0, markers := 0, hasAES := false, aes := List.replicate 24 0 }

/-- `Track::copyMarkers` (Track.cpp:145-171) for the track `i` at `p`, from a track of a setup. -/
def copyMarkers (p : Ptr) (i : Nat) (tr : TrackRec) : M Unit := do
  setAt (ρ := HTrackRec) p i fun x => { x with markerCount := tr.markerCount }
  let q ← calloc tr.markerCount ({} : HMarkerRec)
  setAt (ρ := HTrackRec) p i fun x => { x with markers := q }
  forRange tr.markerCount fun j => do
    let m : MarkerRec ← getAt tr.markers j
    setAt (ρ := HMarkerRec) q j fun x => { x with id := wrapS 16 m.id }
    let text : List Byte ← load m.name
    let a ← alloc text
    setAt (ρ := HMarkerRec) q j fun x => { x with name := a }
    let text : List Byte ← load m.comment
    let a ← alloc text
    setAt (ρ := HMarkerRec) q j fun x => { x with comment := a, position := 0 }

/-- `copyTracksFromSetup` (FileHandle.cpp:233-263) -/
def copyTracks (h s : Ptr) : M Unit := do
  let r : SetupRec ← load s
  let p ← calloc r.trackCount newHTrack
  let x : HandleRec ← load h
  store h { x with trackCount := r.trackCount, tracks := p }
  forRange r.trackCount fun i => do
    let tr : TrackRec ← getAt r.tracks i
    setAt (ρ := HTrackRec) p i fun x => { x with id := tr.fields.id, f := tr.fields.f }
    copyMarkers p i tr
    setAt (ρ := HTrackRec) p i fun x => { x with hasAES := tr.fields.aesDataSet }

/-- `copyInstrumentsFromSetup` (FileHandle.cpp:265-321). The number and the default values of the parameters are those of the
setup's file format. -/
def copyInstruments (h s : Ptr) : M Unit := do
  let r : SetupRec ← load s
  let p ← calloc r.instrumentCount ({} : HInstRec)
  let x : HandleRec ← load h
  store h { x with instrumentCount := r.instrumentCount, instruments := p }
  forRange r.instrumentCount fun i => do
    let inst : InstRec ← getAt r.instruments i
    setAt (ρ := HInstRec) p i fun x => { x with id := inst.id, loopCount := inst.loopCount }
    let q ← calloc inst.loopCount (⟨0, 0, 0, 0, 0, 0⟩ : Meta.Loop)
    setAt (ρ := HInstRec) p i fun x => { x with loops := q }
    forRange inst.loopCount fun j => do
      let id : Int ← getAt inst.loops j
      setAt (ρ := Meta.Loop) q j fun _ => ⟨id, 0, 0, 2 * j + 1, 2 * j + 2, Setup.DEFAULT_TRACK⟩
    let defaults := Setup.paramDefaults r.fileFormat.family
    let q ← calloc defaults.length (0 : BitVec 64)
    setAt (ρ := HInstRec) p i fun x => { x with values := q }
    forRange defaults.length fun j => setAt (ρ := BitVec 64) q j fun _ => defaults.getD j 0

/-- `copyMiscellaneousFromSetup` (FileHandle.cpp:323-346) -/
def copyMisc (h s : Ptr) : M Unit := do
  let r : SetupRec ← load s
  let p ← calloc r.miscellaneousCount ({} : HMiscRec)
  let x : HandleRec ← load h
  store h { x with miscellaneousCount := r.miscellaneousCount, miscellaneous := p }
  forRange r.miscellaneousCount fun i => do
    let m : Setup.MiscSetup ← getAt r.miscellaneous i
    setAt (ρ := HMiscRec) p i fun _ => { id := m.id, type := m.type, size := m.size, position := 0, buffer := 0 }

/-- `initCompressionParams` (AIFF.cpp:1163-1184, WAVE.cpp:1547-1604, CAF.cpp:678-738), for the first track of the handle. The
items of the list are not modelled. -/
def initCompressionParams (h : Ptr) : M Unit := do
  let r : HandleRec ← load h
  let tr : HTrackRec ← getAt r.tracks 0
  let c := tr.f.compression
  onlyIf (r.fileFormat ∈ [.aiff, .aiffc] ∧ c = Setup.IMA ∨ r.fileFormat = .wave ∧ (c = Setup.IMA ∨ c = Setup.MSADPCM) ∨
      r.fileFormat = .caf ∧ (c = Setup.IMA ∨ c = Setup.ALAC)) do
    let pv ← alloc ([] : List (Int × BitVec 64))
    setAt (ρ := HTrackRec) r.tracks 0 fun x => { x with fparams := pv }

/-- `Track::~Track` (Track.cpp:88-117). An `AUpvlist` is one block here. -/
def deleteTrack (p : Ptr) (i : Nat) : M Unit := do
  let tr : HTrackRec ← getAt p i
  onlyIf (tr.fparams ≠ 0) (free tr.fparams)
  onlyIf (tr.vparams ≠ 0) (free tr.vparams)
  free tr.matrix
  onlyIf (tr.markers ≠ 0) do
    forRange tr.markerCount fun j => do
      let m : HMarkerRec ← getAt tr.markers j
      free m.name
      free m.comment
    free tr.markers

/-- `_AFfilehandle::~_AFfilehandle` (FileHandle.cpp:52-66, 116-153). No parameter is a pointer. -/
def deleteHandle (h : Ptr) : M Unit := do
  let r : HandleRec ← load h
  onlyIf (r.tracks ≠ 0) do
    forRange r.trackCount fun i => deleteTrack r.tracks i
    free r.tracks
  onlyIf (r.instruments ≠ 0) do
    forRange r.instrumentCount fun i => do
      let x : HInstRec ← getAt r.instruments i
      free x.loops
      onlyIf (x.values ≠ 0) (free x.values)
    free r.instruments
  onlyIf (r.miscellaneous ≠ 0) do
    forRange r.miscellaneousCount fun i => do
      let x : HMiscRec ← getAt r.miscellaneous i
      free x.buffer
    free r.miscellaneous
  free h

/-- The virtual format at first (openclose.cpp:369-395): the whole of `f`, with its pointer, is copied before parts of it are
changed. -/
def initVirtual (e : Endian) (h : Ptr) (user : Option AFmt) : M Unit := do
  let r : HandleRec ← load h
  forRange r.trackCount fun t => do
    setAt (ρ := HTrackRec) r.tracks t fun x => { x with v := x.f, vparams := x.fparams }
    match user with
    | none => pure ()
    | some u => setAt (ρ := HTrackRec) r.tracks t fun x =>
        { x with v := { x.v with sampleFormat := u.sampleFormat, pcm := u.pcm, rate := u.rate } }
    setAt (ρ := HTrackRec) r.tracks t fun x =>
      { x with v := { x.v with compression := Setup.NONE, byteOrder := Setup.native e }, vparams := 0 }

/-- `_afOpenFile` for writing (openclose.cpp:271-405); 0 is the null handle. `written` tells whether the header could be written
(`writeInit`), `codec` whether the modules could be made (`ModuleState::init`). -/
def openWrite (e : Endian) (s : Ptr) (written codec : Bool) : M Ptr := do
  let S ← readSetup s
  let user := (S.tracks.head?).map (·.f)
  let c := Setup.complete e S
  setScalar s Setup.DEFAULT_TRACK fun tr => { tr with f := (c.1.tracks.head?.map (·.f)).getD tr.f }
  if c.2.isNone then return 0
  let q ← copySetup s S.fileFormat
  let h ← alloc ({ access := .write, fileFormat := S.fileFormat, trackCount := 0, tracks := 0, instrumentCount := 0,
                   instruments := 0, miscellaneousCount := 0, miscellaneous := 0 } : HandleRec)
  copyTracks h q
  copyInstruments h q
  copyMisc h q
  initCompressionParams h
  if !written then
    deleteHandle h
    freeFileSetup q
    return 0
  freeFileSetup q
  initVirtual e h user
  if !codec then
    deleteHandle h
    return 0
  return h

/-! ## Calls on a handle -/

def readOptional {α : Type} [Content α] (p : Ptr) : M (Option α) :=
  if p = 0 then pure none else do
    let a ← load p
    return some a

/-- Everything a call on a handle can look at. -/
def readHandle (h : Ptr) : M HandleVal := do
  let r : HandleRec ← load h
  let tracks ← readArray (fun tr : HTrackRec => do
    let markers ← readArray (fun m : HMarkerRec => do
      let name : List Byte ← load m.name
      let comment : List Byte ← load m.comment
      return ((⟨m.id, m.position⟩ : Meta.Marker), name, comment)) tr.markers tr.markerCount
    let matrix ← readOptional tr.matrix
    return (⟨⟨tr.id, markers.map (·.1), tr.hasAES, tr.aes⟩, tr.f, tr.v, markers.map (·.2), matrix⟩ : TrackVal)) r.tracks r.trackCount
  let instruments ← readArray (fun x : HInstRec => do
    let loops ← readArray (fun l : Meta.Loop => pure l) x.loops x.loopCount
    let values ← readArray (fun v : BitVec 64 => pure v) x.values r.fileFormat.family.ids.length
    return (⟨x.id, loops, values⟩ : Meta.Instrument)) r.instruments r.instrumentCount
  let misc ← readArray (fun x : HMiscRec => do
    let buffer ← readOptional x.buffer
    return (⟨x.id, x.type, x.size, buffer, x.position⟩ : Meta.Misc)) r.miscellaneous r.miscellaneousCount
  return { access := r.access, family := r.fileFormat.family, tracks := tracks, instruments := instruments, misc := misc }

/-- `afSetMarkPosition` (Marker.cpp:187-212) -/
def setMarkPosition (h : Ptr) (t m position : Int) : M Unit := do
  let r : HandleRec ← load h
  if r.access ≠ .write then return
  match ← findAt (ρ := HTrackRec) r.tracks r.trackCount (·.id == t) with
  | none => return
  | some i => do
    let tr : HTrackRec ← getAt r.tracks i
    match ← findAt (ρ := HMarkerRec) tr.markers tr.markerCount (·.id == m) with
    | none => return
    | some j => setAt (ρ := HMarkerRec) tr.markers j fun x => { x with position := if position < 0 then 0 else position }

/-- `afSetAESChannelData` (aes.cpp:86-108) -/
def setAES (h : Ptr) (t : Int) (buf : List Byte) : M Unit := do
  let r : HandleRec ← load h
  match ← findAt (ρ := HTrackRec) r.tracks r.trackCount (·.id == t) with
  | none => return
  | some i => do
    if r.access ≠ .write then return
    let tr : HTrackRec ← getAt r.tracks i
    onlyIf (tr.hasAES = true) (setAt (ρ := HTrackRec) r.tracks i fun x => { x with aes := buf.take 24 })

/-- `getLoop` with `mustWrite` (Loop.cpp:78-92) and a store to a field of the loop that is found, e.g. Loop.cpp:97-113. -/
def updLoop (h : Ptr) (i l : Int) (f : Meta.Loop → Meta.Loop) : M Unit := do
  let r : HandleRec ← load h
  if r.access ≠ .write then return
  match ← findAt (ρ := HInstRec) r.instruments r.instrumentCount (·.id == i) with
  | none => return
  | some k => do
    let x : HInstRec ← getAt r.instruments k
    match ← findAt (ρ := Meta.Loop) x.loops x.loopCount (·.id == l) with
    | none => return
    | some j => setAt (ρ := Meta.Loop) x.loops j f

/-- The loop that `getLoop` with `mustWrite` finds (Loop.cpp:78-92). -/
def getLoop (h : Ptr) (i l : Int) : M (Option Meta.Loop) := do
  let r : HandleRec ← load h
  if r.access ≠ .write then return none
  match ← findAt (ρ := HInstRec) r.instruments r.instrumentCount (·.id == i) with
  | none => return none
  | some k => do
    let x : HInstRec ← getAt r.instruments k
    match ← findAt (ρ := Meta.Loop) x.loops x.loopCount (·.id == l) with
    | none => return none
    | some j => do
      let lp : Meta.Loop ← getAt x.loops j
      return some lp

/-- The calls that set a field of a loop (Loop.cpp:97-113, 131-146, 164-172, 190-208, 228-235, 253-261, 279-296). -/
def setLoop (h : Ptr) (f : Meta.LoopField) (i l v : Int) : M Unit :=
  match f with
  | .mode => onlyIf (v = 0 ∨ v = 1 ∨ v = 2) (updLoop h i l fun lp => { lp with mode := v })
  | .count => onlyIf (1 ≤ v) (updLoop h i l fun lp => { lp with count := v })
  | .start => updLoop h i l fun lp => { lp with beginMarker := v }
  | .endd => updLoop h i l fun lp => { lp with endMarker := v }
  | .track => updLoop h i l fun lp => { lp with trackid := v }
  | .startFrame => do
    match ← getLoop h i l with
    | none => return
    | some lp => onlyIf (0 ≤ v) (setMarkPosition h lp.trackid lp.beginMarker v)
  | .endFrame => do
    match ← getLoop h i l with
    | none => return
    | some lp => onlyIf (0 ≤ v) (setMarkPosition h lp.trackid lp.endMarker v)

/-- `_af_instparam_set` (Instrument.cpp:115-161) -/
def setInstParams (h : Ptr) (i : Int) (pv : Pv.PvList) (npv : Int) : M Unit := do
  let r : HandleRec ← load h
  if r.access ≠ .write then return
  match ← findAt (ρ := HInstRec) r.instruments r.instrumentCount (·.id == i) with
  | none => return
  | some k => do
    let x : HInstRec ← getAt r.instruments k
    let family := r.fileFormat.family
    forList (Meta.pvTake pv npv) fun it =>
      match Meta.indexFromId family it.param with
      | none => pure ()
      | some j => onlyIf (Meta.isInstrumentParameterValid family it = true) (setAt (ρ := BitVec 64) x.values j fun _ => it.value)

/-- `afReadMisc` (Miscellaneous.cpp:166-190), what it does to the handle; the bytes must be there. -/
def readMisc (h : Ptr) (id bytes : Int) : M Unit := do
  let r : HandleRec ← load h
  if r.access ≠ .read then return
  match ← findAt (ρ := HMiscRec) r.miscellaneous r.miscellaneousCount (·.id == id) with
  | none => return
  | some i => do
    if bytes ≤ 0 then return
    let m : HMiscRec ← getAt r.miscellaneous i
    let localsize := min bytes (m.size - m.position)
    onlyIf (localsize ≠ 0) do
      let l : List Byte ← load m.buffer
      if m.position < 0 ∨ localsize < 0 ∨ l.length < m.position + localsize then fault else return
    setAt (ρ := HMiscRec) r.miscellaneous i fun x => { x with position := x.position + localsize }

/-- `afWriteMisc` (Miscellaneous.cpp:132-164). The allocation of a negative size fails. -/
def writeMisc (h : Ptr) (id : Int) (buf : List Byte) : M Unit := do
  let r : HandleRec ← load h
  if r.access ≠ .write then return
  match ← findAt (ρ := HMiscRec) r.miscellaneous r.miscellaneousCount (·.id == id) with
  | none => return
  | some i => do
    if (buf.length : Int) ≤ 0 then return
    let m : HMiscRec ← getAt r.miscellaneous i
    if m.buffer = 0 ∧ m.size < 0 then return
    onlyIf (m.buffer = 0 ∧ m.size ≠ 0) do
      let b ← alloc (List.replicate m.size.toNat (0 : Byte))
      setAt (ρ := HMiscRec) r.miscellaneous i fun x => { x with buffer := b }
    let m : HMiscRec ← getAt r.miscellaneous i
    let localsize := min (buf.length : Int) (m.size - m.position)
    memcpy m.buffer m.position buf localsize
    setAt (ρ := HMiscRec) r.miscellaneous i fun x => { x with position := x.position + localsize }

/-- `afSeekMisc` (Miscellaneous.cpp:192-213) -/
def seekMisc (h : Ptr) (id offset : Int) : M Unit := do
  let r : HandleRec ← load h
  match ← findAt (ρ := HMiscRec) r.miscellaneous r.miscellaneousCount (·.id == id) with
  | none => return
  | some i => do
    let m : HMiscRec ← getAt r.miscellaneous i
    onlyIf (offset < m.size) (setAt (ρ := HMiscRec) r.miscellaneous i fun x => { x with position := offset })

/-- `afSetVirtualSampleFormat`, `afSetVirtualRate`, `afSetVirtualByteOrder`, `afSetVirtualPCMMapping` (format.cpp:151-171, 267-283,
329-348, pcm.cpp:83-101): `g` is the change of the virtual format. -/
def setVirtual (h : Ptr) (t : Int) (g : AFmt → AFmt) : M Unit := do
  let r : HandleRec ← load h
  match ← findAt (ρ := HTrackRec) r.tracks r.trackCount (·.id == t) with
  | none => return
  | some i => setAt (ρ := HTrackRec) r.tracks i fun x => { x with v := g x.v }

/-- `afSetVirtualChannels` (format.cpp:297-315) -/
def setVirtualChannels (h : Ptr) (t n : Int) : M Unit := do
  let r : HandleRec ← load h
  match ← findAt (ρ := HTrackRec) r.tracks r.trackCount (·.id == t) with
  | none => return
  | some i => do
    setAt (ρ := HTrackRec) r.tracks i fun x => { x with v := { x.v with channels := n } }
    let x : HTrackRec ← getAt r.tracks i
    onlyIf (x.matrix ≠ 0) (free x.matrix)
    setAt (ρ := HTrackRec) r.tracks i fun x => { x with matrix := 0 }

/-- `afSetChannelMatrix` (format.cpp:350-373): `matrix` has as many numbers as the two formats have channels. `malloc` of zero
bytes is taken to give a block. -/
def setChannelMatrix (h : Ptr) (t : Int) (matrix : Option (List (BitVec 64))) : M Unit := do
  let r : HandleRec ← load h
  match ← findAt (ρ := HTrackRec) r.tracks r.trackCount (·.id == t) with
  | none => return
  | some i => do
    let x : HTrackRec ← getAt r.tracks i
    onlyIf (x.matrix ≠ 0) (free x.matrix)
    setAt (ρ := HTrackRec) r.tracks i fun x => { x with matrix := 0 }
    match matrix with
    | none => return
    | some l => do
      let q ← alloc l
      setAt (ρ := HTrackRec) r.tracks i fun x => { x with matrix := q }

/-- What a call does to the handle. The calls not listed only read. -/
def handleEffect (h : Ptr) : Meta.Op → M Unit
  | .setMark t m p => setMarkPosition h t m p
  | .setAES t b => setAES h t b
  | .setLoop f i l v => setLoop h f i l v
  | .setParams i pv n => setInstParams h i pv n
  | .setParamLong i p v => setInstParams h i (some [{ type := Pv.LONG, param := p, value := v }]) 1
  | .writeMisc id b => writeMisc h id b
  | .readMisc id n => readMisc h id n
  | .seekMisc id o => seekMisc h id o
  | _ => pure ()

/-- A call on the metadata of a handle: what it answers is what `Model/Meta.lean` says of the handle as it is found in memory. -/
def handleCall (h : Ptr) (op : Meta.Op) : M Meta.Ret := do
  let V ← readHandle h
  handleEffect h op
  match Meta.step V.metadata op with
  | .ok (r, _) => return r
  | .error _ => fault

/-- The calls that change the virtual format or the channel matrix. -/
inductive VOp
  | sampleFormat (t sf sw : Int)
  | rate (t : Int) (r : Rat)
  | byteOrder (t o : Int)
  | pcm (t : Int) (m : Convert.PCM)
  | channels (t n : Int)
  | matrix (t : Int) (m : Option (List (BitVec 64)))

def virtualCall (h : Ptr) : VOp → M Unit
  | .sampleFormat t sf sw => setVirtual h t fun v => (Setup.setVirtualSampleFormat v sf sw).2
  | .rate t r => setVirtual h t fun v => (Setup.setVirtualRate v r).2
  | .byteOrder t o => setVirtual h t fun v => (Setup.setVirtualByteOrder v o).2
  | .pcm t m => setVirtual h t fun v => { v with pcm := m }
  | .channels t n => setVirtualChannels h t n
  | .matrix t m => setChannelMatrix h t m

end AF.Heap
