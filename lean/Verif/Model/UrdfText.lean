import Verif.Model.UrdfXml

/-!
Model of the translator of arrays of three numbers of src/scenegraph/urdf.cpp: the only parser written in
the library.

Simplifications. The conversions of boost between a text and a `double` are trusted and given by two
functions `parse` and `print`, which C90 takes from `Model/DecimalText.lean`. A text is a list of characters.
-/

namespace AlMath.UrdfText

open AlMath.Urdf

/-- The delimiters of src/scenegraph/urdf.cpp:74. -/
def isBlank (c : Char) : Bool :=
  c = ' ' || c = '\t' || c = '\n' || c = '\x0b' || c = '\x0c' || c = '\r'

/-- The tokens of `boost::tokenizer` with `char_delimiters_separator` (src/scenegraph/urdf.cpp:73-74)
when no delimiter is returned: delimiters are skipped, then a token goes up to the next one. -/
def tokens : List Char → List (List Char)
  | [] => []
  | c :: l =>
    if isBlank c then tokens l
    else (c :: l.takeWhile fun d => !isBlank d) :: tokens (l.dropWhile fun d => !isBlank d)
  termination_by l => l.length
  decreasing_by
    · simp
    · simp only [List.length_cons]
      have := (List.dropWhile_sublist (l := l) fun d => !isBlank d).length_le
      omega

/-- src/scenegraph/urdf.cpp:80-84 (the loop of `Array3dTranslator::get_value`): the numbers read, and the
tokens left. `none` when a token is not a number. -/
def readNumbers (parse : List Char → Option ℝ) : ℕ → List (List Char) →
    Option (List ℝ × List (List Char))
  | 0, toks => some ([], toks)
  | _ + 1, [] => some ([], [])
  | k + 1, t :: toks =>
    match parse t with
    | none => none
    | some d => (readNumbers parse k toks).map fun r => (d :: r.1, r.2)

/-- src/scenegraph/urdf.cpp:66-88 (`Array3dTranslator::get_value`). -/
def getValue (parse : List Char → Option ℝ) (str : List Char) : Option Array3d :=
  match readNumbers parse 3 (tokens str) with
  | some ([a, b, c], []) => some ![a, b, c]
  | _ => none

/-- src/scenegraph/urdf.cpp:90-97 (`Array3dTranslator::put_value`). -/
def putValue (print : ℝ → List Char) (v : Array3d) : List Char :=
  print (v 0) ++ [' '] ++ print (v 1) ++ [' '] ++ print (v 2)

end AlMath.UrdfText
