import Verif.Spec.Surface

/-!
# Images whose tops are equally bright and whose bottoms are equally dark
-/

namespace PyEMD
namespace Img
namespace Spec

variable {K : Type} [LE K]

/-- All local tops of the image have the value `hi`, all local bottoms the value `lo`, and at least five of each lie inside. -/
structure EqualPeaks (im : Img K) (lo hi : K) : Prop where
  wf : WF im
  tops : ∀ r c x, TopInside im r c x → x = hi
  bottoms : ∀ r c x, BottomInside im r c x → x = lo
  manyTops : ∃ ps : List (Nat × Nat), ps.Nodup ∧ 5 ≤ ps.length ∧ ∀ p ∈ ps, Interior im.rows im.cols p.1 p.2 ∧ ∃ x, TopInside im p.1 p.2 x
  manyBottoms : ∃ ps : List (Nat × Nat), ps.Nodup ∧ 5 ≤ ps.length ∧ ∀ p ∈ ps, Interior im.rows im.cols p.1 p.2 ∧ ∃ x, BottomInside im p.1 p.2 x

/-- The image of the given shape with the same value everywhere. -/
def level {K : Type} (R C : Nat) (v : K) : Img K := { rows := R, cols := C, data := List.replicate (R * C) v }

end Spec
end Img

/-- An interpolator that takes sixteen points or more and goes level through points of equal height. -/
def KeepsLevel {K : Type} (sbs : Surface K) : Prop :=
  ∀ X Y Z v, 16 ≤ X.length → Y.length = X.length → Z.length = X.length → (∀ z ∈ Z, z = v) → ∃ s, sbs X Y Z = .ok s ∧ ∀ i j, s i j = v

end PyEMD
