import Verif.LastErr
/-! # Specification: errors of readers -/
namespace Cowl.LastErr

/-- The calls with a code, in order. -/
def reports : List Act → List (Ret × Str)
  | [] => []
  | .report r m :: as => (r, m) :: reports as
  | .stream _ :: as => reports as

/-- The report that counts: the first error, or the last one if there is no error. -/
def deciding : List (Ret × Str) → Option (Ret × Str)
  | [] => none
  | x :: l => if x.1.isErr then some x else (deciding l).or (some x)

/-- A location as text, if there is one. -/
def locText (name : String) (v : UInt32) : List Str := if v = 0 then [] else [ascii name ++ uintToStr v]

/-- The text of an error: what went wrong, the message, and where. -/
def errorText (name : Ret → Str) (e : Err) : Str :=
  let at' := locText "line " e.line ++ locText "col " e.col ++ locText "byte " e.byte
  name e.code ++ (if e.msg = [] then [] else ascii ": " ++ e.msg) ++
    (if at' = [] then [] else ascii " (" ++ (ascii ", ").intercalate at' ++ ascii ")")

end Cowl.LastErr
