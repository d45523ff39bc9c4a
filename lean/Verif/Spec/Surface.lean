import Verif.Spec.Image
import Verif.Lemmas.Affine

/-!
# What is asked of the interpolation of surfaces
-/

namespace PyEMD

open Img.Spec

/-- A surface through different points misses none of them by more than `ε` (`ε = 0`: it passes through all of them). -/
def PassesWithin {K : Type} [Lattice K] [AddGroup K] (ε : K) (sbs : Surface K) : Prop :=
  ∀ X Y Z s, (X.zip Y).Nodup → sbs X Y Z = .ok s →
    ∀ (k x y : Nat) (z : K), X[k]? = some x → Y[k]? = some y → Z[k]? = some z → |s x y - z| ≤ ε

/-- The entry at `[r, c]`, on the border or not, is at least as large as all its neighbours in the array. -/
def TopInside {α : Type} [LE α] (im : Img α) (r c : Nat) (x : α) : Prop :=
  r < im.rows ∧ c < im.cols ∧ at? im r c = some x ∧
    ∀ r' c' y, Near r c r' c' → r' < im.rows → c' < im.cols → at? im r' c' = some y → y ≤ x

/-- The entry at `[r, c]`, on the border or not, is at most as large as all its neighbours in the array. -/
def BottomInside {α : Type} [LE α] (im : Img α) (r c : Nat) (x : α) : Prop :=
  r < im.rows ∧ c < im.cols ∧ at? im r c = some x ∧
    ∀ r' c' y, Near r c r' c' → r' < im.rows → c' < im.cols → at? im r' c' = some y → x ≤ y

/-- `b` shows at `p` what `a` shows at `g p`. -/
structure Shows {α : Type} (g : Nat × Nat → Nat × Nat) (R C R' C' : Nat) (a b : Img α) : Prop where
  shape : HasShape a R C
  shape' : HasShape b R' C'
  at_eq : ∀ r < R', ∀ c < C', at? b r c = at? a (g (r, c)).1 (g (r, c)).2

/-- The points moved by `g` (in any order) give the surface moved by `g`. -/
def MovesAlong {α : Type} (dom : Nat × Nat → Prop) (g : Nat × Nat → Nat × Nat) (sbs : Surface α) : Prop :=
  ∀ P P' : List ((Nat × Nat) × α), (∀ q ∈ P', dom q.1) → (P'.map (fun q => (g q.1, q.2))).Perm P →
    RelX (fun s s' => ∀ p, dom p → s' p.1 p.2 = s (g p).1 (g p).2)
      (sbs (P.map (·.1.1)) (P.map (·.1.2)) (P.map (·.2))) (sbs (P'.map (·.1.1)) (P'.map (·.1.2)) (P'.map (·.2)))

/-- The interpolation prefers no direction and no axis. -/
structure Isotropic {α : Type} (sbs : Surface α) : Prop where
  lr : ∀ w, MovesAlong (fun p => p.2 ≤ w) (fun p => (p.1, w - p.2)) sbs
  ud : ∀ w, MovesAlong (fun p => p.1 ≤ w) (fun p => (w - p.1, p.2)) sbs
  tr : MovesAlong (fun _ => True) (fun p => (p.2, p.1)) sbs

end PyEMD
