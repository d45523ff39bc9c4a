import Verif.Spec.Symmetric
import Verif.Lemmas.Exact

/-!
# Exact arithmetic is symmetric
-/

namespace PyEMD

instance exactSymmetric {K : Type} [Field K] [LinearOrder K] [IsStrictOrderedRing K] [FloorRing K] : Symmetric K where
  neg_neg := neg_neg
  add_comm := add_comm
  neg_add_neg a b := by ring
  neg_sub a b := by ring
  neg_sub_neg a b := by ring
  neg_mul := neg_mul
  mul_neg := mul_neg
  neg_div := fun a b => neg_div b a
  neg_div_neg a b _ := neg_div_neg_eq a b
  neg_lt_neg a b := neg_lt_neg_iff
  lt_asymm a b h := not_lt.2 h.le
  neg_eq a h1 h2 := by
    rw [lit_zero] at h1 h2
    rw [le_antisymm (not_lt.1 h2) (not_lt.1 h1), neg_zero]
  zero_mul a b h := by
    rw [lit_zero, beq_iff_eq] at h
    simp [h, lit_zero]
  neg_beq a := by
    rw [lit_zero, Bool.eq_iff_iff]
    simp only [beq_iff_eq, neg_eq_zero]
  npMax_neg l h := by
    have h' : l.map (fun x => -x) ≠ [] := by simpa using h
    obtain ⟨a, b⟩ := npMax_spec h'
    obtain ⟨c, d⟩ := npMin_spec h
    apply le_antisymm
    · obtain ⟨x, hx, e⟩ := List.mem_map.1 a
      rw [← e]
      exact neg_le_neg (d x hx)
    · exact b _ (List.mem_map_of_mem c)

end PyEMD
