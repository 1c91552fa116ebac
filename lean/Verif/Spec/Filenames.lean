import Verif.Model.Filenames

/-!
Specification vocabulary of C69: positions in XML documents and the positions of file names.
-/

namespace AlMath.Spec

open AlMath.Filenames

/-- The node at a position: the indices of the children on the way down. Not in /repo: specification. -/
def nodeAt (t : Xml) : List ℕ → Option Xml
  | [] => some t
  | i :: p =>
    match t.children[i]? with
    | some (_, c) => nodeAt c p
    | none => none

/-- The keys of the children of the node at a position. Not in /repo: specification. -/
def keysAt (t : Xml) (p : List ℕ) : Option (List String) :=
  (nodeAt t p).map fun n => n.children.map Prod.fst

/-- The text at a position. Not in /repo: specification. -/
def textAt (t : Xml) (p : List ℕ) : Option String := (nodeAt t p).map Xml.text

/-- The position is reached through children with the given keys. A key with `true` counts for the first
child with this key only. Not in /repo: specification. -/
def Follows : List (String × Bool) → Xml → List ℕ → Prop
  | [], _, [] => True
  | (k, b) :: ks, t, i :: p => ∃ c, t.children[i]? = some (k, c) ∧
      (b = true → ∀ j < i, ∀ c', t.children[j]? ≠ some (k, c')) ∧ Follows ks c p
  | _, _, _ => False

/-- The text at the position is the file name of a texture of a material of the robot, or of a mesh or a
texture of a visual of a link. Not in /repo: specification. -/
def IsFilename (t : Xml) (p : List ℕ) : Prop :=
  Follows [("material", false), ("texture", true), ("<xmlattr>", true), ("filename", true)] t p ∨
  Follows [("link", false), ("visual", false), ("geometry", true), ("mesh", false), ("<xmlattr>", true),
    ("filename", true)] t p ∨
  Follows [("link", false), ("visual", false), ("material", false), ("texture", true),
    ("<xmlattr>", true), ("filename", true)] t p

/-- Every visual of every link has a geometry. Not in /repo: specification. -/
def VisualsHaveGeometry (t : Xml) : Prop :=
  ∀ p, Follows [("link", false), ("visual", false)] t p →
    ∃ ks, keysAt t p = some ks ∧ "geometry" ∈ ks

end AlMath.Spec
