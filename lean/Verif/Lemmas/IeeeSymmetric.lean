import Verif.Spec.Symmetric
import Verif.Lemmas.IeeeExtrema

/-!
# IEEE 754 arithmetic is symmetric
-/

set_option linter.unusedSectionVars false

namespace PyEMD
namespace Ieee
variable {f e E : ℕ}

theorem num_congr {a b : ℤ} {ha : Rep f e E a} {hb : Rep f e E b} (h : a = b) : (num a ha : Ieee f e E) = num b hb := by
  subst h; rfl

theorem neg_round (n : ℤ) (d : ℕ) (hd : 0 < d) : -(round n d hd : Ieee f e E) = round (-n) d hd := by
  unfold round
  by_cases h : (rndInt f n d).natAbs < 2 ^ (E + e)
  · have h' : (rndInt f (-n) d).natAbs < 2 ^ (E + e) := by rw [rndInt_neg, Int.natAbs_neg]; exact h
    rw [dif_pos h, dif_pos h']
    exact num_congr (rndInt_neg f n d).symm
  · have h' : ¬ (rndInt f (-n) d).natAbs < 2 ^ (E + e) := by rw [rndInt_neg, Int.natAbs_neg]; exact h
    rw [dif_neg h, dif_neg h']
    have h0 : n ≠ 0 := by
      rintro rfl
      apply h
      rw [rndInt_zero]
      simp
    show inf (!decide (n < 0)) = inf (decide (-n < 0))
    congr 1
    by_cases hn : n < 0
    · rw [decide_eq_true hn, decide_eq_false (by omega)]; rfl
    · rw [decide_eq_false hn, decide_eq_true (by omega)]; rfl

theorem round_congr {n n' : ℤ} {d d' : ℕ} (hd : 0 < d) (hd' : 0 < d') (h : n = n') (h' : d = d') :
    (round n d hd : Ieee f e E) = round n' d' hd' := by
  subst h; subst h'; rfl

theorem add_def (x y : Ieee f e E) : x + y = add x y := rfl
theorem sub_def (x y : Ieee f e E) : x - y = add x (neg y) := rfl
theorem mul_def (x y : Ieee f e E) : x * y = mul x y := rfl
theorem div_def (x y : Ieee f e E) : x / y = div x y := rfl
theorem neg_def (x : Ieee f e E) : -x = neg x := rfl
theorem lt_def (x y : Ieee f e E) : x < y ↔ lt x y = true := Iff.rfl
theorem beq_def (x y : Ieee f e E) : (x == y) = beq x y := rfl

theorem neg_neg' (x : Ieee f e E) : - -x = x := by
  cases x with
  | nan => rfl
  | inf s => cases s <;> rfl
  | num m h => exact num_congr (Int.neg_neg m)

theorem add_comm' (x y : Ieee f e E) : x + y = y + x := by
  cases x with
  | nan => cases y <;> rfl
  | inf s => cases y with
    | nan => rfl
    | inf t => cases s <;> cases t <;> rfl
    | num m h => rfl
  | num a ha => cases y with
    | nan => rfl
    | inf t => rfl
    | num b hb => exact round_congr Nat.one_pos Nat.one_pos (Int.add_comm a b) rfl

theorem neg_add_neg' (x y : Ieee f e E) : -x + -y = -(x + y) := by
  cases x with
  | nan => cases y <;> rfl
  | inf s => cases y with
    | nan => rfl
    | inf t => cases s <;> cases t <;> rfl
    | num m h => rfl
  | num a ha => cases y with
    | nan => rfl
    | inf t => rfl
    | num b hb =>
      refine Eq.trans ?_ (neg_round (a + b) 1 Nat.one_pos).symm
      exact round_congr Nat.one_pos Nat.one_pos (by ring) rfl

theorem neg_mul' (x y : Ieee f e E) : -x * y = -(x * y) := by
  cases x with
  | nan => cases y <;> rfl
  | inf s => cases y with
    | nan => rfl
    | inf t => cases s <;> cases t <;> rfl
    | num m h =>
      show (if m = 0 then nan else inf ((!s) != decide (m < 0))) = -(if m = 0 then nan else inf (s != decide (m < 0)))
      split
      · rfl
      · show inf _ = inf _
        congr 1
        cases s <;> cases decide (m < 0) <;> rfl
  | num a ha => cases y with
    | nan => rfl
    | inf t =>
      show (if -a = 0 then nan else inf (decide (-a < 0) != t)) = -(if a = 0 then nan else inf (decide (a < 0) != t))
      by_cases h : a = 0
      · rw [if_pos h, if_pos (by omega)]; rfl
      · rw [if_neg h, if_neg (by omega)]
        show inf _ = inf _
        congr 1
        by_cases hn : a < 0
        · rw [decide_eq_true hn, decide_eq_false (by omega)]; cases t <;> rfl
        · rw [decide_eq_false hn, decide_eq_true (by omega)]; cases t <;> rfl
    | num b hb =>
      refine Eq.trans ?_ (neg_round (a * b) (2 ^ e) (Nat.two_pow_pos e)).symm
      exact round_congr (Nat.two_pow_pos e) (Nat.two_pow_pos e) (by ring) rfl

theorem mul_comm' (x y : Ieee f e E) : x * y = y * x := by
  cases x with
  | nan => cases y <;> rfl
  | inf s => cases y with
    | nan => rfl
    | inf t => cases s <;> cases t <;> rfl
    | num m h =>
      show (if m = 0 then nan else inf (s != decide (m < 0))) = (if m = 0 then nan else inf (decide (m < 0) != s))
      cases s <;> cases decide (m < 0) <;> rfl
  | num a ha => cases y with
    | nan => rfl
    | inf t =>
      show (if a = 0 then nan else inf (decide (a < 0) != t)) = (if a = 0 then nan else inf (t != decide (a < 0)))
      cases t <;> cases decide (a < 0) <;> rfl
    | num b hb => exact round_congr (Nat.two_pow_pos e) (Nat.two_pow_pos e) (by ring) rfl

theorem neg_div' (x y : Ieee f e E) : -x / y = -(x / y) := by
  cases x with
  | nan => cases y <;> rfl
  | inf s => cases y with
    | nan => rfl
    | inf t => rfl
    | num m h =>
      show inf ((!s) != decide (m < 0)) = inf (!(s != decide (m < 0)))
      cases s <;> cases decide (m < 0) <;> rfl
  | num a ha => cases y with
    | nan => rfl
    | inf t =>
      refine Eq.trans ?_ (neg_round 0 1 Nat.one_pos).symm
      exact round_congr Nat.one_pos Nat.one_pos rfl rfl
    | num b hb =>
      by_cases h : b = 0
      · subst h
        show (if -a = 0 then nan else inf (decide (-a < 0))) = -(if a = 0 then nan else inf (decide (a < 0)))
        by_cases h : a = 0
        · rw [if_pos h, if_pos (by omega)]; rfl
        · rw [if_neg h, if_neg (by omega)]
          show inf _ = inf _
          congr 1
          by_cases hn : a < 0
          · rw [decide_eq_true hn, decide_eq_false (by omega)]; rfl
          · rw [decide_eq_false hn, decide_eq_true (by omega)]; rfl
      · have e1 : ∀ (m : ℤ) (hm : Rep f e E m), (num m hm / num b hb : Ieee f e E) =
            round (if b < 0 then -(m * 2 ^ e) else m * 2 ^ e) b.natAbs (Int.natAbs_pos.2 h) := fun m hm => dif_neg h
        refine (e1 (-a) _).trans (Eq.trans ?_ (congrArg _ (e1 a ha)).symm)
        rw [neg_round]
        refine round_congr _ _ ?_ rfl
        split <;> ring

theorem neg_div_neg' (x y : Ieee f e E) (h : (y == lit 0) = false) : -x / -y = x / y := by
  rw [neg_div']
  cases y with
  | nan => cases x <;> rfl
  | inf t =>
    cases x with
    | nan => rfl
    | inf s => rfl
    | num a ha =>
      refine (neg_round 0 1 Nat.one_pos).trans ?_
      exact round_congr Nat.one_pos Nat.one_pos rfl rfl
  | num b hb =>
    rw [lit_zero, beq_num, decide_eq_false_iff_not] at h
    cases x with
    | nan => rfl
    | inf s =>
      show inf (!(s != decide (-b < 0))) = inf (s != decide (b < 0))
      congr 1
      by_cases hn : b < 0
      · rw [decide_eq_true hn, decide_eq_false (by omega)]; cases s <;> rfl
      · rw [decide_eq_false hn, decide_eq_true (by omega)]; cases s <;> rfl
    | num a ha =>
      have e1 : ∀ (m : ℤ) (hm : Rep f e E m) (h : m ≠ 0), (num a ha / num m hm : Ieee f e E) =
          round (if m < 0 then -(a * 2 ^ e) else a * 2 ^ e) m.natAbs (Int.natAbs_pos.2 h) := fun m hm h => dif_neg h
      refine (congrArg _ (e1 (-b) _ (by omega))).trans (Eq.trans ?_ (e1 b hb h).symm)
      rw [neg_round]
      refine round_congr _ _ ?_ (Int.natAbs_neg b)
      by_cases hn : b < 0
      · rw [if_pos hn, if_neg (by omega)]
      · rw [if_neg hn, if_pos (by omega)]; ring

theorem neg_lt_neg' (x y : Ieee f e E) : -x < -y ↔ y < x := by
  cases x with
  | nan => cases y <;> exact Iff.rfl
  | inf s => cases y with
    | nan => exact Iff.rfl
    | inf t => cases s <;> cases t <;> exact Iff.rfl
    | num m h => cases s <;> exact Iff.rfl
  | num a ha => cases y with
    | nan => exact Iff.rfl
    | inf t => cases t <;> exact Iff.rfl
    | num b hb =>
      refine (lt_num _ _ _ _).trans (Iff.trans ?_ (lt_num _ _ _ _).symm)
      omega

theorem lt_asymm' (x y : Ieee f e E) : x < y → ¬ y < x := by
  cases x with
  | nan => intro h; cases y <;> cases h
  | inf s => cases y with
    | nan => intro h; cases h
    | inf t => cases s <;> cases t <;> intro h h' <;> cases h <;> cases h'
    | num m hm => cases s <;> intro h h' <;> cases h <;> cases h'
  | num a ha => cases y with
    | nan => intro h; cases h
    | inf t => cases t <;> intro h h' <;> cases h <;> cases h'
    | num b hb =>
      intro h h'
      have h1 := (lt_num _ _ _ _).1 h
      have h2 := (lt_num _ _ _ _).1 h'
      omega

theorem neg_eq' (x : Ieee f e E) (h1 : ¬ x < lit 0) (h2 : ¬ lit 0 < x) : -x = x := by
  rw [lit_zero] at h1 h2
  cases x with
  | nan => rfl
  | inf s => cases s with
    | true => exact absurd rfl h1
    | false => exact absurd rfl h2
  | num m h =>
    rw [lt_num] at h1 h2
    exact num_congr (by omega)

theorem zero_mul' (x y : Ieee f e E) (h : (x == lit 0) = true) : ¬ x * y < lit 0 := by
  rw [lit_zero] at h ⊢
  cases x with
  | nan => cases h
  | inf s => cases h
  | num m hm =>
    rw [beq_num, decide_eq_true_eq] at h
    subst h
    cases y with
    | nan => intro h; cases h
    | inf t => intro h; cases h
    | num b hb =>
      rw [mul_num]
      intro h
      rw [← lit_zero, round_lt_zero] at h
      simp at h

theorem neg_beq' (x : Ieee f e E) : (-x == lit 0) = (x == lit 0) := by
  rw [lit_zero]
  cases x with
  | nan => rfl
  | inf s => rfl
  | num m h =>
    refine (beq_num _ _ _ _).trans (Eq.trans ?_ (beq_num _ _ _ _).symm)
    congr 1
    rw [eq_iff_iff]
    omega

theorem neg_pick (x y : Ieee f e E) : pick (fun a b => lt b a) (-x) (-y) = -pick (fun a b => lt a b) x y := by
  have key : lt (-y) (-x) = lt x y := Bool.eq_iff_iff.2 (neg_lt_neg' y x)
  have aux : ∀ (g : Ieee f e E → Ieee f e E → Bool) (x y : Ieee f e E), x ≠ nan → y ≠ nan → pick g x y = if g x y then x else y := by
    intro g x y h1 h2
    cases x <;> cases y <;> first | exact absurd rfl h1 | exact absurd rfl h2 | rfl
  by_cases h1 : x = nan
  · subst h1; cases y <;> rfl
  · by_cases h2 : y = nan
    · subst h2; cases x <;> rfl
    · rw [aux _ _ _ h1 h2, aux _ _ _ (by cases x <;> first | exact absurd rfl h1 | (intro h; cases h))
        (by cases y <;> first | exact absurd rfl h2 | (intro h; cases h)), key]
      split <;> rfl

theorem npMax_neg' (l : List (Ieee f e E)) (h : l ≠ []) : npMax (l.map fun x => -x) = -npMin l := by
  cases l with
  | nil => exact absurd rfl h
  | cons a l =>
    show (l.map fun x => -x).foldl (pick fun a b => lt b a) (-a) = -(l.foldl (pick fun a b => lt a b) a)
    induction l generalizing a with
    | nil => rfl
    | cons b l ih =>
      rw [List.map_cons, List.foldl_cons, List.foldl_cons, neg_pick]
      exact ih _ (by simp)

/-- Rounding to nearest, ties to even, is symmetric, and with one zero so is everything else. -/
instance symmetric : Symmetric (Ieee f e E) where
  neg_neg := neg_neg'
  add_comm := add_comm'
  neg_add_neg := neg_add_neg'
  neg_sub a b := by
    rw [sub_def, sub_def, ← neg_def, ← neg_def]
    refine (neg_add_neg' a (-b)).symm.trans ?_
    rw [neg_neg']
    exact add_comm' _ _
  neg_sub_neg a b := by
    rw [sub_def, sub_def, ← neg_def, ← neg_def, neg_neg']
    exact add_comm' _ _
  neg_mul := neg_mul'
  mul_neg a b := by rw [mul_comm', neg_mul', mul_comm']
  neg_div := neg_div'
  neg_div_neg := neg_div_neg'
  neg_lt_neg := neg_lt_neg'
  lt_asymm := lt_asymm'
  neg_eq := neg_eq'
  zero_mul a b h := ⟨zero_mul' a b h, by rw [mul_comm']; exact zero_mul' a b h⟩
  neg_beq := neg_beq'
  npMax_neg := npMax_neg'

end Ieee
end PyEMD
