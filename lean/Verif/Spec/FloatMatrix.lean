import Verif.Model.FloatTypes
import Verif.Spec.Frobenius

/-!
Specification vocabulary for products of matrices of floats.
-/

namespace AlMath.F32

open AlMath.Spec Matrix

/-- The rotation whose fields are the finite numbers of a matrix. Not in /repo: specification. -/
def Rotation.ofMat (A : Mat3) : Rotation :=
  ⟨fin (A 0 0), fin (A 0 1), fin (A 0 2), fin (A 1 0), fin (A 1 1), fin (A 1 2), fin (A 2 0), fin (A 2 1), fin (A 2 2)⟩

/-- The position whose fields are the finite numbers of a vector. Not in /repo: specification. -/
def Position3D.ofVec (v : Vec3) : Position3D := ⟨fin (v 0), fin (v 1), fin (v 2)⟩

/-- The transform whose fields are the finite numbers of a matrix and a vector. Not in /repo:
specification. -/
def Transform.ofMat (A : Mat3) (v : Vec3) : Transform := ⟨Rotation.ofMat A, fin (v 0), fin (v 1), fin (v 2)⟩

/-- An expression made of products, bracketed in any way. Not in /repo: specification. -/
inductive Product (α : Type) where
  | factor (a : α)
  | times (l r : Product α)

/-- Value of a product. Not in /repo: specification. -/
def Product.eval {α β : Type} (f : α → β) (mul : β → β → β) : Product α → β
  | .factor a => f a
  | .times l r => mul (l.eval f mul) (r.eval f mul)

/-- Number of factors. Not in /repo: specification. -/
def Product.size {α : Type} : Product α → ℕ
  | .factor _ => 1
  | .times l r => l.size + r.size

/-- All factors satisfy `P`. Not in /repo: specification. -/
def Product.All {α : Type} (P : α → Prop) : Product α → Prop
  | .factor a => P a
  | .times l r => l.All P ∧ r.All P

/-- Composition of exact rigid motions `v ↦ Q v + t`. Not in /repo: specification. -/
def compose (a b : Mat3 × Vec3) : Mat3 × Vec3 := (a.1 * b.1, a.1 *ᵥ b.2 + a.2)

end AlMath.F32
