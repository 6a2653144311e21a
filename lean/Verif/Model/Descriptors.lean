import Verif.Model.Identify
import Verif.Model.CInt
/-!
# Descriptors, virtual files, and the calls that open, identify and close files

openclose.cpp:48-270, 445-462, File.cpp, af_vfs.cpp. What happens between `File::create` and the result of `_afOpenFile` to the file behind
the descriptor (reading and writing, `Files.*`) is not followed here: its outcome is given, and may be anything.
-/
namespace AF.Descriptors
open AF

def upd {α : Type} (f : Nat → α) (i : Nat) (x : α) : Nat → α := fun j => if j = i then x else f j

/-- File.cpp:44-76: `m_fd` of a `FilePOSIX` (`none`: −1), `m_vf` of a `FileVF` (`none`: null). -/
inductive FileObj
  | posix (fd : Option Nat)
  | virt (vf : Option Nat)
  deriving DecidableEq

/-- What the operating system keeps for an open file: which one it is, and the position. Descriptors made by `dup` share it. -/
structure Description where
  file : Nat
  pos : Nat

inductive Access
  | read
  | write
  deriving DecidableEq

/-- The process and the disk: which descriptors are open, what they stand for, the contents of files, the virtual files that have not
been destroyed, and the handles the library has given out. -/
structure World where
  table : Nat → Option Nat
  descriptions : Nat → Description
  files : Nat → List Byte
  virtuals : Nat → Bool
  handles : Nat → Option (FileObj × Access)

inductive Fault
  /-- `close` of a descriptor that is not open -/
  | badDescriptor
  /-- `destroy` and `free` of a virtual file a second time -/
  | deadVirtual
  /-- a handle that does not exist -/
  | badHandle

/-- File.cpp:114-122 `FilePOSIX::close`, 164-170 `FileVF::close`, af_vfs.cpp:39-44. -/
def FileObj.close (w : World) : FileObj → Except Fault (FileObj × World)
  | .posix none => .ok (.posix none, w)
  | .posix (some fd) => if (w.table fd).isSome then .ok (.posix none, { w with table := upd w.table fd none }) else .error .badDescriptor
  | .virt none => .ok (.virt none, w)
  | .virt (some v) => if w.virtuals v then .ok (.virt none, { w with virtuals := upd w.virtuals v false }) else .error .deadVirtual

/-- `delete f`: the destructors close (File.cpp:48, 65). -/
def FileObj.delete (w : World) (f : FileObj) : Except Fault World := (f.close w).map (·.2)

/-- The `mode` argument: null, or its first character (openclose.cpp:121-140). -/
inductive Mode
  | null
  | r
  | w
  | other
  deriving DecidableEq

def Mode.access : Mode → Option Access
  | .r => some .read
  | .w => some .write
  | _ => none

/-- What became of the file: position and contents. -/
structure Io where
  pos : Nat
  data : List Byte

/-- Reading and writing through a `File`. A file opened for reading is never written to. -/
def World.touch (w : World) (f : FileObj) (a : Access) (io : Io) : World :=
  match f with
  | .posix (some fd) =>
    match w.table fd with
    | some o => { w with descriptions := upd w.descriptions o ⟨(w.descriptions o).file, io.pos⟩
                         files := match a with
                           | .read => w.files
                           | .write => upd w.files (w.descriptions o).file io.data }
    | none => w
  | _ => w

/-- openclose.cpp:272-406 `_afOpenFile`, whose outcome is `ok`, with the `delete f` after a failure (openclose.cpp:144-148, 176-180,
216-220, 263-267). The handle's destructor (FileHandle.cpp:119-154) does not touch the `File`. -/
def openInner (a : Access) (f : FileObj) (ok : Bool) (io : Io) (h : Nat) (w : World) : Except Fault (World × Option Nat) :=
  let w := w.touch f a io
  if ok then .ok ({ w with handles := upd w.handles h (some (f, a)) }, some h)
  else (f.delete w).map fun w => (w, none)

/-- What a program does. The answers of the operating system are part of it: `got`, what `open` returns (descriptor and description);
`dup`, what `dup` returns; `ok` and `io`, what comes out of `_afOpenFile`; `h`, where the handle will be. -/
inductive FileCall
  | openFile (path : Nat) (mode : Mode) (got : Option (Nat × Nat)) (ok : Bool) (io : Io) (h : Nat)
  | openFD (fd : Nat) (mode : Mode) (ok : Bool) (io : Io) (h : Nat)
  | openVirtual (vf : Nat) (mode : Mode) (ok : Bool) (io : Io) (h : Nat)
  | identifyFD (fd : Nat) (dup : Option Nat)
  | closeFile (h : Nat) (io : Io)
  /-- the program's own: it opens a file and closes it, it makes a virtual file -/
  | ownOpen (fd description : Nat)
  | ownClose (fd : Nat)
  | ownVirtual (vf : Nat)

/-- File.cpp:78-93 `File::open`: `O_RDONLY`, or `O_CREAT | O_WRONLY | O_TRUNC`. -/
def World.openPath (w : World) (path : Nat) (a : Access) (fd o : Nat) : World :=
  { w with table := upd w.table fd (some o), descriptions := upd w.descriptions o ⟨path, 0⟩
           files := match a with
             | .read => w.files
             | .write => upd w.files path [] }

/-- openclose.cpp:48-76 `_af_identify` on a file that can be sought in. -/
def World.identify (w : World) : FileObj → World
  | .posix (some fd) =>
    match w.table fd with
    | some o =>
      match Files.identify (w.files (w.descriptions o).file) (w.descriptions o).pos with
      | .ok (_, p) => { w with descriptions := upd w.descriptions o ⟨(w.descriptions o).file, p⟩ }
      | .error _ => w
    | none => w
  | _ => w

/-- The calls: afOpenFile (openclose.cpp:185-223), afOpenFD (openclose.cpp:118-151, afOpenNamedFD 153-183 is the same), afOpenVirtualFile
(openclose.cpp:225-270), afIdentifyFD (openclose.cpp:78-93, afIdentifyNamedFD 95-116 is the same), afCloseFile (openclose.cpp:445-462). -/
def step (w : World) : FileCall → Except Fault (World × Option Nat)
  | .openFile path mode got ok io h =>
    match mode.access with
    | none => .ok (w, none)
    | some a =>
      match got with
      | none => .ok (w, none)
      | some (fd, o) => openInner a (.posix (some fd)) ok io h (w.openPath path a fd o)
  | .openFD fd mode ok io h =>
    match mode.access with
    | none => .ok (w, none)
    | some a => openInner a (.posix (some fd)) ok io h w
  | .openVirtual vf mode ok io h =>
    match mode.access with
    | none => .ok (w, none)
    | some a => openInner a (.virt (some vf)) ok io h w
  | .identifyFD fd dup =>
    let w := match dup with
      | some d => { w with table := upd w.table d (w.table fd) }
      | none => w
    let f := FileObj.posix dup
    (f.delete (w.identify f)).map fun w => (w, none)
  | .closeFile h io =>
    match w.handles h with
    | none => .error .badHandle
    | some (f, a) =>
      let w := match a with
        | .read => w
        | .write => w.touch f a io
      (f.close w).bind fun (f, w) => (f.delete w).map fun w => ({ w with handles := upd w.handles h none }, none)
  | .ownOpen fd o => .ok ({ w with table := upd w.table fd (some o) }, none)
  | .ownClose fd => if (w.table fd).isSome then .ok ({ w with table := upd w.table fd none }, none) else .error .badDescriptor
  | .ownVirtual v => .ok ({ w with virtuals := upd w.virtuals v true }, none)

/-! ## The two kinds of `File` -/

/-- File.h:47-52: where a seek starts from. -/
inductive Origin
  | beginning
  | current
  | ending

/-- A file and the position in it. -/
structure Bytes where
  data : List Byte
  pos : Nat

/-- `read`: what there is, up to `n` bytes. -/
def Bytes.read (b : Bytes) (n : Nat) : List Byte × Bytes := ((b.data.drop b.pos).take n, ⟨b.data, b.pos + ((b.data.drop b.pos).take n).length⟩)

/-- `write`: a gap is filled with zeros; what is there is replaced. -/
def Bytes.write (b : Bytes) (bs : List Byte) : Bytes :=
  let d := if bs.isEmpty then b.data else b.data ++ List.replicate (b.pos - b.data.length) 0
  ⟨d.take b.pos ++ bs ++ d.drop (b.pos + bs.length), b.pos + bs.length⟩

/-- `lseek`, to a place: −1, and nothing happens, if that is before the start. (Places that do not fit an `off_t` are not told apart.) -/
def Bytes.goto (b : Bytes) (p : Int) : Int × Bytes := if p < 0 then (-1, b) else (p, ⟨b.data, p.toNat⟩)

/-- `lseek`. -/
def Bytes.lseek (b : Bytes) (offset : Int) : Origin → Int × Bytes
  | .beginning => b.goto offset
  | .current => b.goto (b.pos + offset)
  | .ending => b.goto (b.data.length + offset)

/-- The functions of a virtual file (af_vfs.h:43-53), on whatever it consists of. -/
structure Virtual (σ : Type) where
  read : σ → Nat → List Byte × σ
  length : σ → Int
  write : σ → List Byte → σ
  seek : σ → Int → Bool → Int × σ
  tell : σ → Int

/-- What the library does with a file, and what it makes of the answers: any use of the methods of `File` (File.h:58-66; `canSeek` is a
seek by 0). -/
inductive Use (α : Type)
  | done (x : α)
  | read (n : Nat) (k : List Byte → Use α)
  | write (bs : List Byte) (k : Use α)
  | length (k : Int → Use α)
  | seek (offset : Int) (o : Origin) (k : Int → Use α)
  | tell (k : Int → Use α)

/-- File.cpp:146-157 `FilePOSIX::seek`. -/
def posixSeek (b : Bytes) (offset : Int) (o : Origin) : Int × Bytes := b.lseek offset o

/-- File.cpp:159-162 `FilePOSIX::tell`. -/
def posixTell (b : Bytes) : Int × Bytes := posixSeek b 0 .current

/-- File.cpp:134-144 `FilePOSIX::length`. -/
def posixLength (b : Bytes) : Int × Bytes :=
  let (cur, b) := posixTell b
  if cur = -1 then (-1, b)
  else
    let (len, b) := posixSeek b 0 .ending
    if len = -1 then (-1, b)
    else (len, (posixSeek b cur .beginning).2)

/-- The library on a descriptor. -/
def onDescriptor {α : Type} : Use α → Bytes → α × Bytes
  | .done x, b => (x, b)
  | .read n k, b => onDescriptor (k (b.read n).1) (b.read n).2
  | .write bs k, b => onDescriptor k (b.write bs)
  | .length k, b => onDescriptor (k (posixLength b).1) (posixLength b).2
  | .seek x o k, b => onDescriptor (k (posixSeek b x o).1) (posixSeek b x o).2
  | .tell k, b => onDescriptor (k (posixTell b).1) (posixTell b).2

/-- File.cpp:187-192 `FileVF::seek`. (That the sum fits an `off_t` is not looked at.) -/
def virtSeek {σ : Type} (v : Virtual σ) (s : σ) (offset : Int) (o : Origin) : Int × σ :=
  match o with
  | .ending => v.seek s (offset + v.length s) false
  | .current => v.seek s offset true
  | .beginning => v.seek s offset false

/-- The library on a virtual file (File.cpp:172-197). -/
def onVirtual {σ α : Type} (v : Virtual σ) : Use α → σ → α × σ
  | .done x, s => (x, s)
  | .read n k, s => onVirtual v (k (v.read s n).1) (v.read s n).2
  | .write bs k, s => onVirtual v k (v.write s bs)
  | .length k, s => onVirtual v (k (v.length s)) s
  | .seek x o k, s => onVirtual v (k (virtSeek v s x o).1) (virtSeek v s x o).2
  | .tell k, s => onVirtual v (k (v.tell s)) s

end AF.Descriptors
