import Mathlib.Logic.Relation
import Verif.Spec.Image

/-!
# Regional maxima and minima of an image
-/

namespace PyEMD
namespace Img
namespace Spec

variable {α : Type}

/-- Pixel of the image. -/
def Inside (im : Img α) (p : Nat × Nat) : Prop := p.1 < im.rows ∧ p.2 < im.cols

/-- The value of pixel `p` is `x`. -/
def HasValue (im : Img α) (p : Nat × Nat) (x : α) : Prop := Inside im p ∧ at? im p.1 p.2 = some x

/-- `q` is one of the eight neighbours of `p` (or `p`) and its value satisfies `P`. -/
def StepTo (im : Img α) (P : α → Prop) (p q : Nat × Nat) : Prop := Near p.1 p.2 q.1 q.2 ∧ ∃ y, HasValue im q y ∧ P y

/-- From `p` one gets to `q` over neighbouring pixels whose values satisfy `P`. -/
def Path (im : Img α) (P : α → Prop) : Nat × Nat → Nat × Nat → Prop := Relation.ReflTransGen (StepTo im P)

/-- Pixel `p` belongs to a regional maximum: from its plateau (the connected pixels of the same value) no step leads up. -/
def RegionalMax [LE α] (im : Img α) (p : Nat × Nat) : Prop :=
  ∃ x, HasValue im p x ∧ ∀ q r y, Path im (· = x) p q → Near q.1 q.2 r.1 r.2 → HasValue im r y → y ≤ x

/-- Pixel `p` belongs to a regional minimum: from its plateau no step leads down. -/
def RegionalMin [LE α] (im : Img α) (p : Nat × Nat) : Prop :=
  ∃ x, HasValue im p x ∧ ∀ q r y, Path im (· = x) p q → Near q.1 q.2 r.1 r.2 → HasValue im r y → x ≤ y

end Spec
end Img
end PyEMD
