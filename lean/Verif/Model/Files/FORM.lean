import Verif.Model.Chunks
/-!
# IFF `FORM` files: what AIFF.cpp and IFF.cpp have in common

Both are big-endian and have the same code for miscellaneous data and the same loop over chunks.
-/
namespace AF.Files
open AF AF.Setup

/-- The idiom of every `write…` of these formats (e.g. AIFF.cpp:812-815): the offset is noted the first time, and sought
later. -/
def Disk.atOffset (offset : Nat) (d : Disk) : Disk × Nat := if offset = 0 then (d, d.pos) else (d.seek offset, offset)

/-- The data of a miscellaneous item (AIFF.cpp:1146-1153, IFF.cpp:483-490): a buffer that was never written to is a gap. -/
def formData (m : Meta.Misc) (d : Disk) : Disk :=
  match m.buffer with
  | some b => d.write b
  | none => d.skip m.size

/-- One item of `writeMiscellaneous` (AIFF.cpp:1119-1161, IFF.cpp:460-497) for the ids `tagOf` of the format. C's `%`
rounds toward zero. -/
def formMisc (tagOf : Int → List Byte) (h : Endian) (d : Disk) (m : Meta.Misc) : Disk :=
  let d := d.write (tagOf m.type ++ fieldBytes h .big .s4 m.size)
  let d := formData m d
  if m.size.tmod 2 ≠ 0 then d.write (fieldBytes h .big .s1 0) else d

/-- `parseMiscellaneous` (AIFF.cpp:151-196, IFF.cpp:88-124) for a type; its result is not looked at. Allocations succeed.
(When the file ends before the chunk, the rest of the buffer is indeterminate; here it is missing.) -/
def formParseMisc (type : Int) (size : Nat) (ms : List Meta.Misc) : Rd (List Meta.Misc) :=
  if size = 0 then return ms
  else do
    let b ← Rd.read size
    return ms ++ [⟨ms.length + 1, type, wrapS 32 size, some b, 0⟩]

/-- `index += chunksize + 8` and alignment (AIFF.cpp:549-554, IFF.cpp:220-229). `index` has 64 bits, the sum 32. -/
def formNext (index size : Nat) : Nat :=
  let i := index + (size + 8) % 2 ^ 32
  if i % 2 ≠ 0 then i + 1 else i

/-- One round of the loop over the chunks (AIFF.cpp:491-557, IFF.cpp:189-232), where `chunk` parses the chunk with an id
and a size. -/
def formRound {σ : Type} (chunk : List Byte → Nat → σ → Rd σ) (h : Endian) (size : Nat) (s : Nat × σ) : Rd ((Nat × σ) ⊕ σ) :=
  if s.1 < size then do
    let id ← Rd.tag
    let chunksize ← Rd.u32Init h .big
    let x ← chunk id chunksize s.2
    let index := formNext s.1 chunksize
    Rd.seek (index + 8)
    return .inl (index, x)
  else return .inr s.2

end AF.Files
