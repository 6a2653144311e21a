import Verif.Model.Fields
import Verif.Model.CInt
/-!
# The conversion modules and how they are chained

`modules/SimpleModule.h`, `modules/SimpleModule.cpp`, `ModuleState::arrange`, on a host of byte order `h`.

Simplifications:
* buffers are byte lists holding exactly the samples of the chunk;
* the numbers of a PCM mapping are rationals (every finite `double` is one) and the few additions `arrange` makes
  to them are exact (they are for the default mappings; for mappings set by the user they may round);
* the effect of the modules that compute in floating point is a parameter (`floatModule`); their integer
  behaviour is modelled separately in Verif/Model/FloatInt.lean;
* `x << k` of a negative number multiplies, `x - kMinSignedValue` wraps in 32 bits (both formally undefined in
  C++03/11; this is what compilers do).
-/
namespace AF.Convert
open AF.Reading (packets)

/-- Sample formats (`AF_SAMPFMT_*`, audiofile.h). -/
inductive SampleFormat | twos | unsigned | float | double
  deriving DecidableEq, Repr

/-- Module.h:31-40 `FormatCode` (`kUndefined` is `none` in `formatCode`). -/
inductive FC | int8 | int16 | int24 | int32 | float | double
  deriving DecidableEq, Repr

/-- PCM mappings (`PCMInfo`, AudioFormat.h). -/
structure PCM where
  slope : Rat
  intercept : Rat
  minClip : Rat
  maxClip : Rat
  deriving DecidableEq

/-- The part of `AudioFormat` (AudioFormat.h:41-70) the conversion chain looks at. -/
structure Fmt where
  sampleFormat : SampleFormat
  width : Nat
  channels : Nat
  byteOrder : Endian
  compressed : Bool
  packed : Bool
  pcm : PCM
  deriving DecidableEq

/-- `AudioFormat::bytesPerSample(stretch3to4)` (AudioFormat.cpp:32-48). -/
def Fmt.bytesPerSample (f : Fmt) (stretch3to4 : Bool) : Nat :=
  match f.sampleFormat with
  | .float => 4
  | .double => 8
  | _ =>
    let size := (f.width + 7) / 8
    if !f.compressed ∧ size = 3 ∧ stretch3to4 then 4 else size

/-- AudioFormat.cpp:65-69 -/
def Fmt.isInteger (f : Fmt) : Bool := f.sampleFormat = .twos ∨ f.sampleFormat = .unsigned
/-- AudioFormat.cpp:76-79 -/
def Fmt.isUnsigned (f : Fmt) : Bool := f.sampleFormat = .unsigned
/-- AudioFormat.cpp:71-74 -/
def Fmt.isSigned (f : Fmt) : Bool := f.sampleFormat = .twos

/-- `getFormatCode` (ModuleState.cpp:255-275). -/
def Fmt.code (f : Fmt) : Option FC :=
  match f.sampleFormat with
  | .float => some .float
  | .double => some .double
  | _ =>
    match f.bytesPerSample false with
    | 1 => some .int8
    | 2 => some .int16
    | 3 => some .int24
    | 4 => some .int32
    | _ => none

/-- `Format + 1` for integer codes: the number of significant bytes. -/
def FC.bytes : FC → Nat
  | .int8 => 1 | .int16 => 2 | .int24 => 3 | .int32 => 4 | .float => 4 | .double => 8

/-- `sizeof` of the C type a sample of this code is held in (`IntTypes`, SimpleModule.h:103-113). -/
def FC.storage : FC → Nat
  | .int8 => 1 | .int16 => 2 | .int24 => 4 | .int32 => 4 | .float => 4 | .double => 8

def FC.isInteger : FC → Bool
  | .float => false | .double => false | _ => true

def FC.isFloat (c : FC) : Bool := !c.isInteger

/-- `kMinSignedValue` (SimpleModule.h:121-123) -/
def FC.minSigned (c : FC) : Int := -(2 ^ (8 * c.bytes - 1) : Nat)

/-- `_af_default_signed_integer_pcm_mappings` (pcm.cpp:39-46, pcm.h:33-60). -/
def defaultSigned (bytes : Nat) : PCM :=
  ⟨(2 ^ (8 * bytes - 1) : Nat), 0, -((2 ^ (8 * bytes - 1) : Nat) : Rat), ((2 ^ (8 * bytes - 1) : Nat) : Rat) - 1⟩

/-- `_af_default_unsigned_integer_pcm_mappings` (pcm.cpp:48-55). -/
def defaultUnsigned (bytes : Nat) : PCM :=
  ⟨(2 ^ (8 * bytes - 1) : Nat), (2 ^ (8 * bytes - 1) : Nat), 0, ((2 ^ (8 * bytes) : Nat) : Rat) - 1⟩

/-- `intmappings` (ModuleState.cpp:245-253); `none` for float codes. -/
def intMapping : FC → Option PCM
  | .float => none
  | .double => none
  | c => some (defaultSigned c.bytes)

/-- ModuleState.cpp:280-285 -/
def isTrivialIntMapping (p : PCM) (c : FC) : Bool :=
  match intMapping c with
  | none => false
  | some m => p.slope = m.slope ∧ p.intercept = m.intercept

/-- ModuleState.cpp:287-292 -/
def isTrivialIntClip (p : PCM) (c : FC) : Bool :=
  match intMapping c with
  | none => false
  | some m => p.minClip = m.minClip ∧ p.maxClip = m.maxClip

/-- The modules of SimpleModule.h with their constructor arguments. For `swap` the number is what
`m_inChunk->f.bytesPerSample(false)` is when it runs (SimpleModule.h:54). -/
inductive Module
  | swap (bytesPerSample : Nat)
  | expand3to4 (signed : Bool)
  | sign (c : FC) (fromSigned : Bool)
  | clip (c : FC) (p : PCM)
  | intToFloat (i o : FC)
  | transform (c : FC) (i o : PCM)
  | convertInt (i o : FC)
  | floatToInt (i o : FC) (ip op : PCM)
  | convertFloat (i o : FC)
  | channelMatrix (c : FC) (inChannels outChannels : Nat) (minClip maxClip : Rat)
  | compress4to3 (signed : Bool)
  deriving DecidableEq

/-- `describe()` of each module: the format of the chunk it produces (SimpleModule.h:47-51, 140-153, 225-228, 265-268,
304-309, 405-413, 500-516, 549-552, 601-606, SimpleModule.cpp:77-82, SimpleModule.h:698-701). -/
def Module.describe : Module → Fmt → Fmt
  | .swap _, f => { f with byteOrder := if f.byteOrder = .big then .little else .big }
  | .expand3to4 _, f => { f with packed := false }
  | .sign _ fromSigned, f =>
    let half : Rat := (2 ^ (8 * f.bytesPerSample false - 1) : Nat)
    let shift := if fromSigned then half else -half
    { f with
        sampleFormat := if fromSigned then .unsigned else .twos
        pcm := { f.pcm with
          intercept := f.pcm.intercept + shift
          minClip := f.pcm.minClip + shift
          maxClip := f.pcm.maxClip + shift } }
  | .clip _ p, f => { f with pcm := p }
  | .intToFloat _ o, f =>
    { f with
        sampleFormat := if o = .double then .double else .float
        width := if o = .double then 64 else 32 }
  | .transform _ _ op, f => { f with pcm := op }
  | .convertInt _ o, f => { f with width := 8 * o.bytes, pcm := defaultSigned o.bytes }
  | .floatToInt _ o _ op, f => { f with sampleFormat := .twos, width := 8 * o.bytes, pcm := op }
  | .convertFloat _ o, f =>
    { f with
        sampleFormat := if o = .double then .double else .float
        width := if o = .double then 64 else 32 }
  | .channelMatrix _ _ oc mn mx, f => { f with channels := oc, pcm := { f.pcm with minClip := mn, maxClip := mx } }
  | .compress4to3 _, f => { f with packed := true }

/-! ## What the modules do to the samples -/

/-- Apply `f` to consecutive groups of `k` bytes (one sample each). -/
def mapSamples (k : Nat) (f : List Byte → List Byte) (bs : List Byte) : List Byte :=
  if hk : 0 < k then (packets k hk bs).flatMap f else []

/-- The value of a signed C object of `bs.length` bytes. -/
def sval (h : Endian) (bs : List Byte) : Int := wrapS (8 * bs.length) (uintOf h bs)

/-- `SwapModule::runSwap` (SimpleModule.h:74-96): `byteswap` for 2, 4, 8 bytes, an explicit exchange for 3. -/
def swapSample (h : Endian) (n : Nat) (g : List Byte) : List Byte :=
  match n with
  | 2 => toBytes h 2 (byteswap16 (BitVec.ofInt 16 (uintOf h g))).toNat
  | 4 => toBytes h 4 (byteswap32 (BitVec.ofInt 32 (uintOf h g))).toNat
  | 8 => toBytes h 8 (byteswap64 (BitVec.ofInt 64 (uintOf h g))).toNat
  | 3 => [g.getD 2 0, g.getD 1 0, g.getD 0 0]
  | _ => g

/-- `Expand3To4Module::run` (SimpleModule.h:246-266). -/
def expandSample (h : Endian) (signed : Bool) (g : List Byte) : List Byte :=
  let b (i : Nat) : Int := (g.getD i 0).toNat
  let t : Int := match h with
    | .big => b 0 * 2 ^ 24 + b 1 * 2 ^ 16 + b 2 * 2 ^ 8
    | .little => b 2 * 2 ^ 24 + b 1 * 2 ^ 16 + b 0 * 2 ^ 8
  toBytes h 4 (if signed then sar (wrapS 32 t) 8 else wrapU 32 t / 2 ^ 8)

/-- `Compress4To3Module::run` (SimpleModule.h:290-323). -/
def compressSample (h : Endian) (signed : Bool) (g : List Byte) : List Byte :=
  let x : Int := if signed then sval h g else uintOf h g
  let c (i : Nat) : Byte := BitVec.ofInt 8 (x / 2 ^ (8 * i))
  match h with
  | .big => [c 2, c 1, c 0]
  | .little => [c 0, c 1, c 2]

/-- `signConverter` (SimpleModule.h:115-136) as applied by `ConvertSign::run` (154-161). -/
def signSample (h : Endian) (c : FC) (fromSigned : Bool) (g : List Byte) : List Byte :=
  toBytes h c.storage
    (if fromSigned then wrapU (8 * c.storage) (sval h g - c.minSigned)
     else wrapS (8 * c.storage) (uintOf h g + c.minSigned))

/-- `ConvertInt` (SimpleModule.h:386-397 `lshift`/`rshift`, 461-489). -/
def convertIntSample (h : Endian) (i o : FC) (g : List Byte) : List Byte :=
  toBytes h o.storage
    (if i.bytes > o.bytes then wrapS (8 * o.storage) (sar (sval h g) ((i.bytes - o.bytes) * 8))
     else wrapS (8 * o.storage) (sval h g * 2 ^ ((o.bytes - i.bytes) * 8)))

/-- Conversion of a floating-point constant to an integer type truncates. -/
def truncRat (q : Rat) : Int := if q < 0 then -((-q).floor) else q.floor

/-- `Clip::run` for integer codes (SimpleModule.h:579-596). -/
def clipSample (h : Endian) (c : FC) (p : PCM) (g : List Byte) : List Byte :=
  toBytes h c.storage (max (min (sval h g) (truncRat p.maxClip)) (truncRat p.minClip))

/-- Effect of a module on the bytes of a chunk; `fm` stands for the modules that compute in floating point. -/
def Module.run (h : Endian) (fm : Module → List Byte → List Byte) (m : Module) (bs : List Byte) : List Byte :=
  match m with
  | .swap n => mapSamples n (swapSample h n) bs
  | .expand3to4 s => mapSamples 3 (expandSample h s) bs
  | .compress4to3 s => mapSamples 4 (compressSample h s) bs
  | .sign c fs => mapSamples c.storage (signSample h c fs) bs
  | .convertInt i o => mapSamples i.storage (convertIntSample h i o) bs
  | .clip c p => if c.isInteger then mapSamples c.storage (clipSample h c p) bs else fm m bs
  | m => fm m bs

/-! ## Assembling the chain -/

/-- A chain under construction: the modules so far and `m_chunks.back()->f`. -/
structure Chain where
  mods : List Module
  f : Fmt

/-- `ModuleState::addModule` (ModuleState.cpp:444-456). -/
def Chain.add (c : Chain) (m : Module) : Chain := ⟨c.mods ++ [m], m.describe c.f⟩

/-- Add a module if a condition holds. -/
def Chain.addIf (c : Chain) (b : Bool) (m : Module) : Chain := if b then c.add m else c

/-- Convert to native byte order (ModuleState.cpp:333-341; the file and rebuffer modules before it are in
Verif/Model/Reading.lean). -/
def toNative (h : Endian) (isReading : Bool) (i : Fmt) (c : Chain) : Chain :=
  c.addIf (i.byteOrder ≠ h ∧ i.bytesPerSample (!isReading) > 1 ∧ !i.compressed) (.swap (c.f.bytesPerSample false))

/-- Unpack 24-bit input and make it signed (ModuleState.cpp:343-352). -/
def toSigned (isReading : Bool) (i : Fmt) (infc : FC) (c : Chain) : Chain :=
  let c := c.addIf (i.isInteger ∧ i.bytesPerSample false = 3 ∧ (isReading ∨ i.compressed)) (.expand3to4 i.isSigned)
  c.addIf i.isUnsigned (.sign infc false)

/-- The output mapping with the unsigned shift undone (ModuleState.cpp:356-363). -/
def outPCM (o : Fmt) (outfc : FC) : PCM :=
  if o.isUnsigned then
    let shift := ((intMapping outfc).getD ⟨0, 0, 0, 0⟩).minClip
    { o.pcm with
      intercept := o.pcm.intercept + shift
      minClip := o.pcm.minClip + shift
      maxClip := o.pcm.maxClip + shift }
  else o.pcm

/-- Does the PCM mapping have to be changed? (ModuleState.cpp:372-375) -/
def transforming (ip op : PCM) (infc outfc : FC) : Bool :=
  (ip.slope ≠ op.slope ∨ ip.intercept ≠ op.intercept) ∧
    ¬ (isTrivialIntMapping ip infc ∧ isTrivialIntMapping op outfc)

/-- From the signed native input to the output mapping, width and channel count (ModuleState.cpp:365-422). -/
def middle (i o : Fmt) (ip op : PCM) (infc outfc : FC) (c : Chain) : Chain :=
  let c := c.addIf (ip.minClip < ip.maxClip ∧ !isTrivialIntClip ip infc) (.clip infc ip)
  let tr := transforming ip op infc outfc
  -- ModuleState.cpp:378-390
  let fc' : FC :=
    if infc.isInteger ∧ tr then
      if infc = .int32 ∨ outfc = .double ∨ outfc = .int32 then .double else .float
    else infc
  let c := c.addIf (infc.isInteger ∧ tr) (.intToFloat infc fc')
  let c := c.addIf (tr ∧ fc' = .double ∧ outfc.isFloat) (.transform fc' ip op)
  -- ModuleState.cpp:395-408
  let (c, done) :=
    if fc'.isInteger ∧ outfc.isInteger then (c.addIf (fc' ≠ outfc) (.convertInt fc' outfc), false)
    else if fc'.isInteger then (c.add (.intToFloat fc' outfc), false)
    else if outfc.isInteger then (c.add (.floatToInt fc' outfc ip op), true)
    else (c.addIf (fc' ≠ outfc) (.convertFloat fc' outfc), false)
  let c := c.addIf (tr ∧ !done ∧ fc' ≠ .double) (.transform outfc ip op)
  let c := c.addIf (i.channels ≠ o.channels)
    (.channelMatrix outfc i.channels o.channels ip.minClip ip.maxClip)
  c.addIf (!done ∧ op.minClip < op.maxClip ∧ !isTrivialIntClip op outfc) (.clip outfc op)

/-- Unsigned, packed, byte-swapped output (ModuleState.cpp:424-442). -/
def toOutput (h : Endian) (isReading : Bool) (o : Fmt) (outfc : FC) (c : Chain) : Chain :=
  let c := c.addIf o.isUnsigned (.sign outfc true)
  let c := c.addIf (o.isInteger ∧ o.bytesPerSample false = 3 ∧ (!isReading ∨ o.compressed)) (.compress4to3 o.isSigned)
  c.addIf (o.byteOrder ≠ h ∧ o.bytesPerSample isReading > 1 ∧ !o.compressed) (.swap (c.f.bytesPerSample false))

/-- `ModuleState::arrange` (ModuleState.cpp:294-442), conversion modules only; `none` is `AF_FAIL`. -/
def arrange (h : Endian) (isReading : Bool) (i o : Fmt) : Option Chain :=
  match i.code, o.code with
  | some infc, some outfc =>
    let c : Chain := ⟨[], i⟩
    let c := toNative h isReading i c
    let c := toSigned isReading i infc c
    let c := middle i o c.f.pcm (outPCM o outfc) infc outfc c
    some (toOutput h isReading o outfc c)
  | _, _ => none

/-- Run a chain on the bytes of a chunk. -/
def runAll (h : Endian) (fm : Module → List Byte → List Byte) (ms : List Module) (bs : List Byte) : List Byte :=
  ms.foldl (fun bs m => m.run h fm bs) bs

end AF.Convert
