import Mathlib.Order.Defs.LinearOrder
import Verif.Spec.Surface

/-!
# Signals and images with few extrema

Independent of the model's helpers.
-/

namespace PyEMD.Spec

/-- A signal that turns at most once: it rises (weakly) up to some place and falls (weakly) from there on, or the other way round.  Every monotone
signal is one. -/
def TurnsOnce {α : Type} [LE α] (S : List α) : Prop :=
  ∃ p : Nat, (∀ i x y, S[i]? = some x → S[i + 1]? = some y → (i < p → x ≤ y) ∧ (p ≤ i → y ≤ x)) ∨
    ∀ i x y, S[i]? = some x → S[i + 1]? = some y → (i < p → y ≤ x) ∧ (p ≤ i → x ≤ y)

end PyEMD.Spec

namespace PyEMD.Img.Spec
open PyEMD

/-- At most four pixels inside the image are tops among their neighbours, or at most four are bottoms. -/
def Few {α : Type} [LE α] (im : Img α) : Prop :=
  (∀ ps : List (Nat × Nat), ps.Nodup → (∀ p ∈ ps, Interior im.rows im.cols p.1 p.2 ∧ ∃ x, TopInside im p.1 p.2 x) → ps.length ≤ 4) ∨
  ∀ ps : List (Nat × Nat), ps.Nodup → (∀ p ∈ ps, Interior im.rows im.cols p.1 p.2 ∧ ∃ x, BottomInside im p.1 p.2 x) → ps.length ≤ 4

end PyEMD.Img.Spec
