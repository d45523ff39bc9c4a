import Verif.Model.Image

/-!
# Specification vocabulary for images
-/

namespace PyEMD
namespace Img
namespace Spec

variable {α : Type}

/-- A rectangular array: as many entries as the shape says. -/
def WF (im : Img α) : Prop := im.data.length = im.rows * im.cols

/-- Entry `[r, c]` in C order. -/
def at? (im : Img α) (r c : Nat) : Option α := im.data[r * im.cols + c]?

/-- Coordinate of the original that coordinate `i` of three mirrored copies of length `n` shows: reversed, straight, reversed. -/
def mirrored (n i : Nat) : Nat := if i < n then n - 1 - i else if i < 2 * n then i - n else 3 * n - 1 - i

/-- Eight-neighbourhood (and the pixel itself). -/
def Near (r c r' c' : Nat) : Prop := r' ≤ r + 1 ∧ r ≤ r' + 1 ∧ c' ≤ c + 1 ∧ c ≤ c' + 1

/-- Not on the border of a `rows × cols` array. -/
def Interior (rows cols r c : Nat) : Prop := 0 < r ∧ r + 1 < rows ∧ 0 < c ∧ c + 1 < cols

/-- The entry at `[r, c]` is at least as large as all its neighbours. -/
def TopAmongNeighbours [LE α] (im : Img α) (r c : Nat) : Prop :=
  ∃ x, at? im r c = some x ∧ ∀ r' c' y, Near r c r' c' → at? im r' c' = some y → y ≤ x

/-- The entry at `[r, c]` is at most as large as all its neighbours. -/
def BottomAmongNeighbours [LE α] (im : Img α) (r c : Nat) : Prop :=
  ∃ x, at? im r c = some x ∧ ∀ r' c' y, Near r c r' c' → at? im r' c' = some y → x ≤ y

end Spec
end Img

/-- A rectangular array of the given shape. -/
structure HasShape {α : Type} (im : Img α) (rows cols : Nat) : Prop where
  wf : Img.Spec.WF im
  rows_eq : im.rows = rows
  cols_eq : im.cols = cols

end PyEMD
