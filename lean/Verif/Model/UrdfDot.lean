import Verif.Model.Urdf

/-!
Model of the printer of kinematic trees as graphs in the dot language (src/scenegraph/urdf.cpp:766-777).

Simplifications. The stream is the list of the characters written to it, and writing never fails. The counter `depth` of
type `int` does not overflow: trees have less than 2^31 levels.
-/

namespace AlMath.Urdf

/-- almath/scenegraph/urdf.h:481-484 (the members of `UrdfDotPrinterVisitor` that change, and the text written). -/
structure DotState where
  depth : ℤ
  doIndent : Bool
  text : List Char

/-- src/scenegraph/urdf.cpp:766-767 (the constructor), for a stream to which `text` was written. -/
def DotState.new (text : List Char) : DotState := ⟨1, false, text⟩

/-- src/scenegraph/urdf.cpp:769-777 (`discover` and `finish`). A string of negative length throws. -/
def dotVisitor : Visitor DotState where
  discover j s :=
    if s.doIndent ∧ s.depth < 0 then (.throws, s)
    else
      (.ok true, { s with
        depth := s.depth + 1
        text := s.text ++ ((if s.doIndent then List.replicate s.depth.toNat '\t' else []) ++ j.parent.toList
          ++ " -> ".toList ++ j.child.toList ++ " [label=".toList ++ j.name.toList ++ "];\n".toList) })
  finish _ s := (.ok (), { s with depth := s.depth - 1 })

end AlMath.Urdf
