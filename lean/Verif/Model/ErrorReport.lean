import Verif.Model.Files.NIST
/-!
# Model of error reports

error.c, and the message of AIFF.cpp:384 with the stack buffer it prints from (AIFF.cpp:354-385, 1187-1196).

A buffer is the list of the bytes that may be read from its address; reading past its end is an overrun. Simplifications: of the
directives of `printf`, `%s` and the integers `%d`, `%zd`, `%jd` (the message is not modelled for others); an error handler does what it
likes, so its own calls of `afSetErrorHandler` and its own errors are the next events of the history (after calling the handler
`_af_error` does nothing more).
-/
namespace AF.ErrorReport
open AF
open AF.Files (tag printInt)

/-- An argument of `_af_error` after the format: the buffer a `char *` points to, or an integer. -/
inductive Arg
  | str (buf : List Byte)
  | int (n : Int)
  deriving DecidableEq

/-- The C string at the beginning of a buffer; `none` if it does not end there. -/
def cstr : List Byte → Option (List Byte)
  | [] => none
  | b :: bs => if b = 0 then some [] else (cstr bs).map (b :: ·)

/-- What `vsnprintf` would write for a format and arguments if it had room; `none` if it reads past the end of a buffer, or the
directive is not modelled or has no argument of its type. `%` is 0x25, `s` 0x73, `d` 0x64, `z` 0x7a, `j` 0x6a. -/
def expand : List Byte → List Arg → Option (List Byte)
  | [], _ => some []
  | b :: f, as =>
    if b ≠ 0x25 then (expand f as).map (b :: ·) else
    match f with
    | [] => none
    | c :: f =>
      if c = 0x73 then
        match as with
        | .str buf :: as =>
          match cstr buf with
          | some s => (expand f as).map (s ++ ·)
          | none => none
        | _ => none
      else if c = 0x64 then
        match as with
        | .int n :: as => (expand f as).map (printInt n ++ ·)
        | _ => none
      else
        match f with
        | [] => none
        | d :: f =>
          if (c = 0x7a ∨ c = 0x6a) ∧ d = 0x64 then
            match as with
            | .int n :: as => (expand f as).map (printInt n ++ ·)
            | _ => none
          else none

/-- `vsnprintf(buf, 1024, …)` (error.c:77): at most 1023 bytes and a zero; the rest of the buffer stays as it was. -/
def vsnprintf (buf out : List Byte) : List Byte :=
  out.take 1023 ++ 0 :: buf.drop ((out.take 1023).length + 1)

/-- The error function (error.c:43): a function of the client's, or `defaultErrorFunction` (error.c:55-60). -/
inductive Handler (H : Type)
  | default
  | client (h : H)
  deriving DecidableEq

/-- What happens to the library: a call of `afSetErrorHandler` (`none` is `NULL`); an error, with the contents of the 1024 bytes of stack
that `_af_error` finds (error.c:71). -/
inductive Event (H : Type)
  | set (h : Option (Handler H))
  | error (code : Int) (fmt : List Byte) (args : List Arg) (stack : List Byte)

/-- What can be seen of it: the handler that `afSetErrorHandler` returns; the call of a client's handler with a code and a buffer; a line
on the standard error; nothing; a read past the end of a buffer. -/
inductive Obs (H : Type)
  | returned (h : Option (Handler H))
  | called (h : H) (code : Int) (buf : List Byte)
  | printed (line : List Byte)
  | nothing
  | overrun
  deriving DecidableEq

variable {H : Type}

/-- `defaultErrorFunction` (error.c:55-60), which prints the string in its buffer. -/
def defaultErrorFunction (code : Int) (buf : List Byte) : Obs H :=
  match cstr buf with
  | some s => .printed (tag "Audio File Library: " ++ s ++ tag " [error " ++ printInt code ++ tag "]\n")
  | none => .overrun

/-- `_af_error` (error.c:69-84) with the error function in force. -/
def afError (h : Option (Handler H)) (code : Int) (fmt : List Byte) (args : List Arg) (stack : List Byte) : Obs H :=
  match expand fmt args with
  | none => .overrun
  | some out =>
    match h with
    | none => .nothing
    | some .default => defaultErrorFunction code (vsnprintf stack out)
    | some (.client c) => .called c code (vsnprintf stack out)

/-- One event: the error function afterwards, and what can be seen. `afSetErrorHandler` is error.c:45-53. -/
def step (h : Option (Handler H)) : Event H → Option (Handler H) × Obs H
  | .set h' => (h', .returned h)
  | .error code fmt args stack => (h, afError h code fmt args stack)

/-- A history -/
def run (h : Option (Handler H)) : List (Event H) → List (Obs H)
  | [] => []
  | e :: es => (step h e).2 :: run (step h e).1 es

/-- error.c:43 -/
def init : Option (Handler H) := some .default

/-- `AIFFFile::readPString` (AIFF.cpp:1187-1196): what becomes of the buffer when the file goes on with `file`. The caller
(AIFF.cpp:363) does not look at the result. -/
def readPString (file buf : List Byte) : List Byte :=
  match file with
  | [] => buf
  | n :: rest =>
    let got := rest.take n.toNat
    if got.length = n.toNat then got ++ 0 :: buf.drop (n.toNat + 1)
    else got ++ buf.drop got.length

/-- AIFF.cpp:384 -/
def appleFmt : List Byte := tag "AIFF-C format does not support Apple's proprietary %s compression format"

/-- The error of a file whose compression type is `ACE2`, `ACE8`, `MAC3` or `MAC6` and which goes on with `file` after that
(AIFF.cpp:355-385): `name` is what is on the stack where `compressionName` is. -/
def appleEvent (file name stack : List Byte) : Event H := .error 0 appleFmt [.str (readPString file name)] stack

/-- openclose.cpp:107,212 (`AF_BAD_OPEN` is 3) -/
def openEvent (filename stack : List Byte) : Event H := .error 3 (tag "could not open file '%s'") [.str filename] stack

end AF.ErrorReport
