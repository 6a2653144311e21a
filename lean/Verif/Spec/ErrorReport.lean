import Verif.Model.ErrorReport
/-!
# Specification of error reports (C86)
-/
namespace AF.ErrorReport
open AF
variable {H : Type}

/-- The error function in force after a history: the last one that was set, the library's own if none was. -/
def inForce (es : List (Event H)) : Option (Handler H) :=
  ((es.filterMap fun | .set h => some h | .error .. => none).getLast?).getD (some .default)

/-- The buffer has 1024 bytes, and what it says as a C string is `s`. -/
def Says (buf s : List Byte) : Prop :=
  buf.length = 1024 ∧ 0 ∉ s ∧ ∃ rest, buf = s ++ 0 :: rest

/-- What is to be seen of an error whose full message is `msg`, if `h` is in force: the handler is called with the code and
the message, cut off after 1023 bytes; the library's own prints it; with no handler nothing happens. -/
def Reports (h : Option (Handler H)) (code : Int) (msg : List Byte) (o : Obs H) : Prop :=
  match h with
  | none => o = .nothing
  | some (.client c) => ∃ buf, o = .called c code buf ∧ Says buf (msg.take 1023)
  | some .default =>
    o = .printed (Files.tag "Audio File Library: " ++ msg.take 1023 ++ Files.tag " [error " ++ Files.printInt code ++ Files.tag "]\n")

end AF.ErrorReport
