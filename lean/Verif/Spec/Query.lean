import Verif.Model.Query
import Verif.Spec.Create
/-!
# Specification: reading the answers of queries

How a program takes a list from the library: it asks for the number of entries, then for the array, and reads that many entries.
-/
namespace AF.Spec.Query
open AF AF.Query

/-- `x` is among the entries a program reads, given the answer to the question for their number and the array. -/
def Enumerated (count : Except Abort Int) (array : Except Abort (Option Pointed)) (x : Int) : Prop :=
  ∃ n buf, count = .ok n ∧ array = .ok (some (.ints buf)) ∧ x ∈ buf.take n.toNat

/-- Reading the entries stays inside the array, and they are all different. A null pointer comes only with the number 0. -/
def Readable (count : Except Abort Int) (array : Except Abort (Option Pointed)) : Prop :=
  ∃ n, count = .ok n ∧ 0 ≤ n ∧
    ((n = 0 ∧ array = .ok none) ∨ ∃ buf, array = .ok (some (.ints buf)) ∧ n.toNat ≤ buf.length ∧ (buf.take n.toNat).Nodup)

/-- The file formats: AF_QUERYTYPE_FILEFMT with AF_QUERY_ID_COUNT and AF_QUERY_IDS. -/
def FormatListed (flac : Bool) : Int → Prop := Enumerated (queryLong flac 501 605 0 0) (queryPointer flac 501 606 0 0)

/-- The compression types: AF_QUERYTYPE_COMPRESSION with AF_QUERY_ID_COUNT and AF_QUERY_IDS. -/
def CompressionListed (flac : Bool) : Int → Prop := Enumerated (queryLong flac 502 605 0 0) (queryPointer flac 502 606 0 0)

/-- The compression types of a file format: AF_QUERY_COMPRESSION_TYPES with AF_QUERY_VALUE_COUNT and AF_QUERY_VALUES. -/
def FormatCompression (flac : Bool) (format : Int) : Int → Prop :=
  Enumerated (queryLong flac 501 624 650 format) (queryPointer flac 501 624 651 format)

/-- The instrument parameters of a file format: AF_QUERYTYPE_INSTPARAM with AF_QUERY_ID_COUNT and AF_QUERY_IDS. -/
def ParamListed (flac : Bool) (format : Int) : Int → Prop :=
  Enumerated (queryLong flac 500 605 format 0) (queryPointer flac 500 606 format 0)

end AF.Spec.Query
