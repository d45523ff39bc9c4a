import Verif.Lemmas.Ieee
import Verif.Lemmas.Negate
import Verif.Model.Extrema
import Mathlib.Data.Real.Archimedean

/-!
# Extremum detection sees only the signs of the steps
-/

set_option linter.unusedSectionVars false

namespace PyEMD

section Congr
variable {α : Type} [Add α] [Sub α] [Mul α] [Div α] [Neg α] [LT α] [LE α] [BEq α] [DecidableLT α] [DecidableLE α] [NpScalar α]
variable {β : Type} [Add β] [Sub β] [Mul β] [Div β] [Neg β] [LT β] [LE β] [BEq β] [DecidableLT β] [DecidableLE β] [NpScalar β]

theorem zipWith_and_map {γ : Type} (sc : List Bool) (d : List γ) (g : γ → Bool) :
    List.zipWith (fun s a => s && g a) sc d = List.zipWith (· && ·) sc (d.map g) := by
  rw [List.zipWith_map_right]

theorem zipWith_and_map₂ {γ : Type} (a b : List γ) (g h : γ → Bool) :
    List.zipWith (fun x y => g x && h y) a b = List.zipWith (· && ·) (a.map g) (b.map h) := by
  rw [List.zipWith_map]

/-- The same signs of the steps, and the same answers to "is the product of two consecutive steps negative", give the same extrema. -/
theorem extremaIdx_congr (S : List α) (S' : List β) (hlen : S.length = S'.length)
    (hz : (npDiff S).map (fun x => x == lit 0) = (npDiff S').map (fun x => x == lit 0))
    (hn : (npDiff S).map (fun x => decide (x < lit 0)) = (npDiff S').map (fun x => decide (x < lit 0)))
    (hp : (npDiff S).map (fun x => decide (lit 0 < x)) = (npDiff S').map (fun x => decide (lit 0 < x)))
    (hs : List.zipWith (fun a b => decide (a * b < lit 0)) (npDiff S).dropLast (npDiff S).tail =
      List.zipWith (fun a b => decide (a * b < lit 0)) (npDiff S').dropLast (npDiff S').tail) :
    EMD.extremaIdx S = EMD.extremaIdx S' := by
  have hany : (npDiff S).any (fun x => x == lit 0) = (npDiff S').any (fun x => x == lit 0) := by
    have h1 : ((npDiff S).map (fun x => x == lit 0)).any id = ((npDiff S').map (fun x => x == lit 0)).any id := by rw [hz]
    rw [List.any_map, List.any_map] at h1
    exact h1
  have hruns : EMD.flatRuns (npDiff S) = EMD.flatRuns (npDiff S') := by
    unfold EMD.flatRuns
    rw [hz]
  have hn1 : (npDiff S).dropLast.map (fun x => decide (x < lit 0)) = (npDiff S').dropLast.map (fun x => decide (x < lit 0)) := by
    rw [List.map_dropLast, List.map_dropLast, hn]
  have hp1 : (npDiff S).dropLast.map (fun x => decide (lit 0 < x)) = (npDiff S').dropLast.map (fun x => decide (lit 0 < x)) := by
    rw [List.map_dropLast, List.map_dropLast, hp]
  have htake : ∀ idx : List Int,
      (∃ u v, pyTake (npDiff S) idx = .ok u ∧ pyTake (npDiff S') idx = .ok v ∧
        u.map (fun x => decide (x < lit 0)) = v.map (fun x => decide (x < lit 0)) ∧
        u.map (fun x => decide (lit 0 < x)) = v.map (fun x => decide (lit 0 < x))) ∨
      (∃ e, pyTake (npDiff S) idx = .error e ∧ pyTake (npDiff S') idx = .error e) := by
    intro idx
    have h1 := congrArg (fun l => pyTake l idx) hn
    have h2 := congrArg (fun l => pyTake l idx) hp
    simp only [pyTake_mapf] at h1 h2
    cases h3 : pyTake (npDiff S) idx with
    | error e =>
      rw [h3] at h1
      cases h4 : pyTake (npDiff S') idx with
      | error e' =>
        rw [h4] at h1
        injection h1 with h1
        exact Or.inr ⟨e, rfl, by rw [h1]⟩
      | ok v => rw [h4] at h1; exact (nomatch h1)
    | ok u =>
      rw [h3] at h1 h2
      cases h4 : pyTake (npDiff S') idx with
      | error e' => rw [h4] at h1; exact (nomatch h1)
      | ok v =>
        rw [h4] at h1 h2
        injection h1 with h1
        injection h2 with h2
        exact Or.inl ⟨u, v, rfl, rfl, h1, h2⟩
  unfold EMD.extremaIdx
  dsimp only
  rw [hany, hruns, hs, hlen]
  simp only [zipWith_and_map, zipWith_and_map₂, hn1, hp1]
  split
  · generalize EMD.dropLastRun S'.length (EMD.dropFirstRun (EMD.flatRuns (npDiff S'))) = df
    obtain ⟨debs, fins⟩ := df
    dsimp only
    split
    · rcases htake (debs.map (fun k : Nat => (k : Int) - 1)) with ⟨u, v, h1, h2, h3, h4⟩ | ⟨e, h1, h2⟩
      · rcases htake (fins.map (fun k : Nat => (k : Int))) with ⟨u', v', h1', h2', h3', h4'⟩ | ⟨e, h1', h2'⟩
        · simp only [h1, h2, h1', h2', bind, Except.bind, h3, h4, h3', h4']
        · simp only [h1, h2, h1', h2', bind, Except.bind]
      · simp only [h1, h2, bind, Except.bind]
    · rfl
  · rfl

/-- The same zeros and the same signs of products of neighbours give the same zero crossings. -/
theorem zeroCrossings_congr (S : List α) (S' : List β)
    (hz : S.map (fun x => x == lit 0) = S'.map (fun x => x == lit 0))
    (hs : List.zipWith (fun a b => decide (a * b < lit 0)) S.dropLast S.tail =
      List.zipWith (fun a b => decide (a * b < lit 0)) S'.dropLast S'.tail) :
    EMD.zeroCrossings S = EMD.zeroCrossings S' := by
  unfold EMD.zeroCrossings
  dsimp only
  rw [hz, hs]

end Congr

/-! ### Signs of rounded results -/

theorem rndNat_pos_iff (f n d : ℕ) (hd : 0 < d) : 0 < rndNat f n d ↔ d < 2 * n := by
  by_cases hq : n / d = 0
  · have hlt : n < d := (Nat.div_eq_zero_iff_lt hd).1 hq
    have hex : excess f (n / d) = 0 := by rw [hq]; simp [excess]
    rw [rndNat, hex, pow_zero, mul_one, mul_one, roundDiv, Nat.mod_eq_of_lt hlt, hq]
    split_ifs <;> omega
  · have hge : d ≤ n := by
      by_contra hlt
      exact hq (Nat.div_eq_of_lt (by omega))
    refine ⟨fun _ => by omega, fun _ => ?_⟩
    rw [rndNat]
    refine Nat.mul_pos ?_ (Nat.two_pow_pos _)
    refine lt_of_lt_of_le ?_ (le_roundDiv _ _)
    rw [← Nat.div_div_eq_div_mul]
    refine Nat.div_pos ?_ (Nat.two_pow_pos _)
    refine le_trans (Nat.pow_le_pow_right (by norm_num) ?_) (Nat.log2_self_le hq)
    rw [excess]
    omega

theorem rndInt_neg_iff (f : ℕ) (n : ℤ) (d : ℕ) (hd : 0 < d) : rndInt f n d < 0 ↔ n < 0 ∧ d < 2 * n.natAbs := by
  have h := rndNat_pos_iff f n.natAbs d hd
  unfold rndInt
  split_ifs with hn
  · constructor
    · intro h1; exact ⟨hn, h.1 (by omega)⟩
    · intro h1; have := h.2 h1.2; omega
  · constructor
    · intro h1; omega
    · intro h1; exact absurd h1.1 hn

theorem rndInt_pos_iff (f : ℕ) (n : ℤ) (d : ℕ) (hd : 0 < d) : 0 < rndInt f n d ↔ 0 < n ∧ d < 2 * n.natAbs := by
  have h := rndInt_neg_iff f (-n) d hd
  rw [rndInt_neg, Int.natAbs_neg] at h
  constructor
  · intro h1; have := h.1 (by omega); exact ⟨by omega, this.2⟩
  · intro h1; have := h.2 ⟨by omega, h1.2⟩; omega

namespace Ieee
variable {f e E : ℕ}

theorem round_lt_zero (n : ℤ) (d : ℕ) (hd : 0 < d) : (round n d hd : Ieee f e E) < lit 0 ↔ n < 0 ∧ d < 2 * n.natAbs := by
  rw [lit_zero, ← rndInt_neg_iff f n d hd]
  unfold round
  by_cases h : (rndInt f n d).natAbs < 2 ^ (E + e)
  · rw [dif_pos h]
    exact lt_num _ _ _ _
  · rw [dif_neg h]
    show decide (n < 0) = true ↔ _
    rw [decide_eq_true_iff, rndInt_neg_iff f n d hd]
    have h1 : 0 < (rndInt f n d).natAbs := lt_of_lt_of_le (by positivity) (not_lt.1 h)
    refine ⟨fun hn => ⟨hn, ?_⟩, fun hn => hn.1⟩
    rcases lt_or_gt_of_ne (Int.natAbs_pos.1 h1) with h2 | h2
    · exact ((rndInt_neg_iff f n d hd).1 h2).2
    · exact ((rndInt_pos_iff f n d hd).1 h2).2

theorem zero_lt_round (n : ℤ) (d : ℕ) (hd : 0 < d) : lit 0 < (round n d hd : Ieee f e E) ↔ 0 < n ∧ d < 2 * n.natAbs := by
  rw [lit_zero, ← rndInt_pos_iff f n d hd]
  unfold round
  by_cases h : (rndInt f n d).natAbs < 2 ^ (E + e)
  · rw [dif_pos h]
    exact lt_num _ _ _ _
  · rw [dif_neg h]
    show (!decide (n < 0)) = true ↔ _
    rw [Bool.not_eq_true', decide_eq_false_iff_not, rndInt_pos_iff f n d hd]
    have h1 : 0 < (rndInt f n d).natAbs := lt_of_lt_of_le (by positivity) (not_lt.1 h)
    rcases lt_or_gt_of_ne (Int.natAbs_pos.1 h1) with h2 | h2
    · have := (rndInt_neg_iff f n d hd).1 h2
      constructor <;> intro h3 <;> omega
    · have := (rndInt_pos_iff f n d hd).1 h2
      constructor <;> intro h3 <;> omega

theorem round_ne_nan (n : ℤ) (d : ℕ) (hd : 0 < d) : (round n d hd : Ieee f e E) ≠ nan := by
  unfold round
  split <;> exact (fun h => nomatch h)

theorem beq_zero_iff (x : Ieee f e E) (hx : x ≠ nan) : (x == lit 0) = true ↔ ¬ x < lit 0 ∧ ¬ lit 0 < x := by
  rw [lit_zero]
  cases x with
  | nan => exact absurd rfl hx
  | inf s =>
    show false = true ↔ ¬ (s = true) ∧ ¬ ((!s) = true)
    cases s <;> simp
  | num m h =>
    rw [beq_num, lt_num, lt_num, decide_eq_true_iff]
    omega

theorem sub_num (a b : ℤ) (ha : Rep f e E a) (hb : Rep f e E b) :
    (num a ha - num b hb : Ieee f e E) = round (a - b) 1 Nat.one_pos := by
  show add (num a ha) (neg (num b hb)) = _
  simp only [neg, add]
  rw [← sub_eq_add_neg]

/-- The sign of a product that does not underflow. -/
theorem mul_lt_zero (x y : Ieee f e E)
    (hu : ∀ a ha b hb, x = num a ha → y = num b hb → a * b ≠ 0 → 2 ^ e < 2 * (a * b).natAbs) (hx : x ≠ nan) (hy : y ≠ nan) :
    x * y < lit 0 ↔ (x < lit 0 ∧ lit 0 < y) ∨ (lit 0 < x ∧ y < lit 0) := by
  cases x with
  | nan => exact absurd rfl hx
  | inf s =>
    cases y with
    | nan => exact absurd rfl hy
    | inf t =>
      rw [lit_zero]
      show (s != t) = true ↔ (s = true ∧ (!t) = true) ∨ ((!s) = true ∧ t = true)
      cases s <;> cases t <;> simp
    | num b hb =>
      rw [lit_zero, lt_num, lt_num]
      show mul (inf s) (num b hb) < num 0 rep_zero ↔ (s = true ∧ 0 < b) ∨ ((!s) = true ∧ b < 0)
      simp only [mul]
      rcases lt_trichotomy b 0 with h | h | h
      · rw [if_neg (by omega)]
        show (s != decide (b < 0)) = true ↔ _
        rw [decide_eq_true h]
        cases s <;> simp <;> omega
      · rw [if_pos h]
        show false = true ↔ _
        cases s <;> simp <;> omega
      · rw [if_neg (by omega)]
        show (s != decide (b < 0)) = true ↔ _
        rw [decide_eq_false (by omega)]
        cases s <;> simp <;> omega
  | num a ha =>
    cases y with
    | nan => exact absurd rfl hy
    | inf t =>
      rw [lit_zero, lt_num, lt_num]
      show mul (num a ha) (inf t) < num 0 rep_zero ↔ (a < 0 ∧ (!t) = true) ∨ (0 < a ∧ t = true)
      simp only [mul]
      rcases lt_trichotomy a 0 with h | h | h
      · rw [if_neg (by omega)]
        show (decide (a < 0) != t) = true ↔ _
        rw [decide_eq_true h]
        cases t <;> simp <;> omega
      · rw [if_pos h]
        show false = true ↔ _
        cases t <;> simp <;> omega
      · rw [if_neg (by omega)]
        show (decide (a < 0) != t) = true ↔ _
        rw [decide_eq_false (by omega)]
        cases t <;> simp <;> omega
    | num b hb =>
      rw [mul_num, round_lt_zero, lit_zero, lt_num, lt_num, lt_num, lt_num]
      constructor
      · rintro ⟨h1, _⟩
        rcases mul_neg_iff.1 h1 with h | h
        · exact Or.inr h
        · exact Or.inl h
      · intro h
        have h1 : a * b < 0 := mul_neg_iff.2 (h.symm)
        exact ⟨h1, hu a ha b hb rfl rfl (by omega)⟩

theorem sub_lt_zero (x y : Ieee f e E) (hx : x.isFinite = true) (hy : y.isFinite = true) : x - y < lit 0 ↔ x.val - y.val < 0 := by
  obtain ⟨a, ha, rfl⟩ := eq_num hx
  obtain ⟨b, hb, rfl⟩ := eq_num hy
  rw [sub_num, round_lt_zero]
  simp only [val]
  rw [← sub_div, div_lt_iff₀ (by positivity), zero_mul, ← Int.cast_sub]
  rw [show ((a - b : ℤ) : ℝ) < 0 ↔ a - b < 0 by exact_mod_cast Iff.rfl]
  omega

theorem zero_lt_sub (x y : Ieee f e E) (hx : x.isFinite = true) (hy : y.isFinite = true) : lit 0 < x - y ↔ 0 < x.val - y.val := by
  obtain ⟨a, ha, rfl⟩ := eq_num hx
  obtain ⟨b, hb, rfl⟩ := eq_num hy
  rw [sub_num, zero_lt_round]
  simp only [val]
  rw [← sub_div, lt_div_iff₀ (by positivity), zero_mul, ← Int.cast_sub]
  rw [show (0 : ℝ) < ((a - b : ℤ) : ℝ) ↔ 0 < a - b by exact_mod_cast Iff.rfl]
  omega

theorem sub_ne_nan (x y : Ieee f e E) (hx : x.isFinite = true) (hy : y.isFinite = true) : x - y ≠ nan := by
  obtain ⟨a, ha, rfl⟩ := eq_num hx
  obtain ⟨b, hb, rfl⟩ := eq_num hy
  rw [sub_num]
  exact round_ne_nan _ _ _

theorem sub_beq_zero (x y : Ieee f e E) (hx : x.isFinite = true) (hy : y.isFinite = true) :
    (x - y == lit 0) = true ↔ x.val - y.val = 0 := by
  rw [beq_zero_iff _ (sub_ne_nan x y hx hy), sub_lt_zero x y hx hy, zero_lt_sub x y hx hy]
  constructor
  · rintro ⟨h1, h2⟩; exact le_antisymm (not_lt.1 h2) (not_lt.1 h1)
  · intro h; rw [h]; simp

/-- Rounding a sum to at least two bits keeps three quarters of it. -/
theorem three_quarters (hf : 1 ≤ f) (n : ℤ) : 3 * |(n : ℝ)| ≤ 4 * |(rndInt f n 1 : ℝ)| := by
  have h := rndInt_err_int f n
  have h1 := abs_sub_abs_le_abs_sub (n : ℝ) (rndInt f n 1 : ℝ)
  rw [abs_sub_comm] at h1
  have h2 : |(n : ℝ)| / 2 ^ (f + 1) ≤ |(n : ℝ)| / 4 := by
    apply div_le_div_of_nonneg_left (abs_nonneg _) (by norm_num)
    calc (4 : ℝ) = 2 ^ 2 := by norm_num
      _ ≤ 2 ^ (f + 1) := pow_le_pow_right₀ (by norm_num) (by omega)
  linarith

/-- The product of two steps has the sign of the exact one unless that is smaller than the smallest positive number of the format. -/
theorem mul_steps (hf : 1 ≤ f) (x y z : Ieee f e E) (hx : x.isFinite = true) (hy : y.isFinite = true) (hz : z.isFinite = true)
    (hu : (y.val - x.val) * (z.val - y.val) = 0 ∨ 1 / 2 ^ e ≤ |(y.val - x.val) * (z.val - y.val)|) :
    (y - x) * (z - y) < lit 0 ↔ (y.val - x.val) * (z.val - y.val) < 0 := by
  rw [mul_lt_zero _ _ _ (sub_ne_nan y x hy hx) (sub_ne_nan z y hz hy), sub_lt_zero y x hy hx, zero_lt_sub y x hy hx,
    sub_lt_zero z y hz hy, zero_lt_sub z y hz hy]
  · exact (or_comm.trans mul_neg_iff.symm)
  · obtain ⟨a, ha, rfl⟩ := eq_num hx
    obtain ⟨b, hb, rfl⟩ := eq_num hy
    obtain ⟨c, hc, rfl⟩ := eq_num hz
    intro p hp q hq h1 h2 h0
    rw [sub_num] at h1 h2
    have e1 : p = rndInt f (b - a) 1 := by
      have h1' : (round (b - a) 1 Nat.one_pos : Ieee f e E).isFinite = true := by rw [h1]; rfl
      obtain ⟨_, h3⟩ := round_ok h1'
      rw [h3] at h1
      injection h1 with h1
      exact h1.symm
    have e2 : q = rndInt f (c - b) 1 := by
      have h2' : (round (c - b) 1 Nat.one_pos : Ieee f e E).isFinite = true := by rw [h2]; rfl
      obtain ⟨_, h3⟩ := round_ok h2'
      rw [h3] at h2
      injection h2 with h2
      exact h2.symm
    have hp4 := three_quarters hf (b - a)
    have hq4 := three_quarters hf (c - b)
    rw [← e1] at hp4
    rw [← e2] at hq4
    have hprod : ((b - a : ℤ) : ℝ) * ((c - b : ℤ) : ℝ) ≠ 0 := by
      have h3 : b - a ≠ 0 := by
        intro h3; rw [h3, rndInt_zero] at e1; rw [e1, zero_mul] at h0; exact h0 rfl
      have h4 : c - b ≠ 0 := by
        intro h3; rw [h3, rndInt_zero] at e2; rw [e2, mul_zero] at h0; exact h0 rfl
      exact mul_ne_zero (by exact_mod_cast h3) (by exact_mod_cast h4)
    have hval : ((num b hb : Ieee f e E).val - (num a ha : Ieee f e E).val) * ((num c hc : Ieee f e E).val - (num b hb : Ieee f e E).val) =
        ((b - a : ℤ) : ℝ) * ((c - b : ℤ) : ℝ) / 2 ^ e / 2 ^ e := by
      simp only [val]
      push_cast
      field_simp
    rw [hval] at hu
    have hu' : (2 : ℝ) ^ e ≤ |((b - a : ℤ) : ℝ)| * |((c - b : ℤ) : ℝ)| := by
      rcases hu with hu | hu
      · exfalso
        rw [div_eq_zero_iff, div_eq_zero_iff] at hu
        rcases hu with (hu | hu) | hu
        · exact hprod hu
        · exact absurd hu (by positivity)
        · exact absurd hu (by positivity)
      · rw [abs_div, abs_div, abs_of_pos (by positivity : (0 : ℝ) < 2 ^ e), abs_mul] at hu
        rw [div_div, div_le_div_iff₀ (by positivity) (by positivity)] at hu
        have : (2 : ℝ) ^ e * (2 : ℝ) ^ e ≤ |((b - a : ℤ) : ℝ)| * |((c - b : ℤ) : ℝ)| * 2 ^ e := by linarith
        exact le_of_mul_le_mul_right this (by positivity)
    have h5 : 9 * (|((b - a : ℤ) : ℝ)| * |((c - b : ℤ) : ℝ)|) ≤ 16 * (|(p : ℝ)| * |(q : ℝ)|) := by
      have := mul_le_mul hp4 hq4 (by positivity) (by positivity)
      linarith
    have h6 : (2 : ℝ) ^ e < 2 * |((p * q : ℤ) : ℝ)| := by
      push_cast
      rw [abs_mul]
      have : (0 : ℝ) < 2 ^ e := by positivity
      linarith
    have h7 : (2 : ℝ) ^ e < 2 * ((p * q).natAbs : ℝ) := by
      rw [Nat.cast_natAbs, Int.cast_abs]
      exact h6
    exact_mod_cast h7

/-- The product of two samples, likewise. -/
theorem mul_samples (x y : Ieee f e E) (hx : x.isFinite = true) (hy : y.isFinite = true)
    (hu : x.val * y.val = 0 ∨ 1 / 2 ^ e ≤ |x.val * y.val|) : x * y < lit 0 ↔ x.val * y.val < 0 := by
  obtain ⟨a, ha, rfl⟩ := eq_num hx
  obtain ⟨b, hb, rfl⟩ := eq_num hy
  have hv : (num a ha : Ieee f e E).val * (num b hb : Ieee f e E).val = ((a * b : ℤ) : ℝ) / 2 ^ e / 2 ^ e := by
    simp only [val]
    push_cast
    field_simp
  rw [mul_num, round_lt_zero, hv]
  rw [hv] at hu
  rw [div_lt_iff₀ (by positivity), zero_mul, div_lt_iff₀ (by positivity), zero_mul]
  rw [show ((a * b : ℤ) : ℝ) < 0 ↔ a * b < 0 by exact_mod_cast Iff.rfl]
  refine ⟨fun h => h.1, fun h => ⟨h, ?_⟩⟩
  rcases hu with hu | hu
  · exfalso
    rw [div_eq_zero_iff, div_eq_zero_iff] at hu
    rcases hu with (hu | hu) | hu
    · have : a * b = 0 := by exact_mod_cast hu
      omega
    · exact absurd hu (by positivity)
    · exact absurd hu (by positivity)
  · rw [abs_div, abs_div, abs_of_pos (by positivity : (0 : ℝ) < 2 ^ e)] at hu
    rw [div_div, div_le_div_iff₀ (by positivity) (by positivity)] at hu
    have h1 : (2 : ℝ) ^ e * (2 : ℝ) ^ e ≤ |((a * b : ℤ) : ℝ)| * 2 ^ e := by linarith
    have h2 : (2 : ℝ) ^ e ≤ |((a * b : ℤ) : ℝ)| := le_of_mul_le_mul_right h1 (by positivity)
    have h3 : (2 : ℝ) ^ e ≤ ((a * b).natAbs : ℝ) := by
      rw [Nat.cast_natAbs, Int.cast_abs]
      exact h2
    have h4 : 2 ^ e ≤ (a * b).natAbs := by exact_mod_cast h3
    have h5 := Nat.two_pow_pos e
    omega

theorem val_eq_zero (x : Ieee f e E) (hx : x.isFinite = true) : (x == lit 0) = true ↔ x.val = 0 := by
  rw [beq_iff x _ hx (by rw [lit_zero]; rfl), lit_zero]
  simp [val]

theorem npDiff_length' {γ : Type} [Sub γ] (S : List γ) : (npDiff S).length = S.length - 1 := by
  simp [npDiff]

theorem npDiff_getElem {γ : Type} [Sub γ] (S : List γ) (i : Nat) (h : i < (npDiff S).length) :
    (npDiff S)[i] = S[i + 1]'(by rw [npDiff_length'] at h; omega) - S[i]'(by rw [npDiff_length'] at h; omega) := by
  simp [npDiff]

theorem map_npDiff (S : List (Ieee f e E)) (hS : ∀ x ∈ S, x.isFinite = true) (g : Ieee f e E → Bool) (g' : ℝ → Bool)
    (hg : ∀ x y : Ieee f e E, x.isFinite = true → y.isFinite = true → g (x - y) = g' (x.val - y.val)) :
    (npDiff S).map g = (npDiff (S.map val)).map g' := by
  apply List.ext_getElem
  · simp [npDiff_length']
  · intro i h1 h2
    rw [List.getElem_map, List.getElem_map, npDiff_getElem, npDiff_getElem]
    simp only [List.getElem_map]
    exact hg _ _ (hS _ (List.getElem_mem _)) (hS _ (List.getElem_mem _))

theorem lit_real_zero : (lit 0 : ℝ) = 0 := by
  show ((0 : ℚ) : ℝ) = 0
  norm_num

theorem lt_lit_zero (r : ℝ) : r < 0 ↔ r < lit 0 := by rw [lit_real_zero]

theorem beq_lit_zero (r : ℝ) : r = 0 ↔ (r == lit 0) = true := by rw [lit_real_zero, beq_iff_eq]

theorem bool_eq_of_iff {a b : Bool} (h : a = true ↔ b = true) : a = b := by
  cases a <;> cases b <;> simp_all

theorem extremaIdx_val (hf : 1 ≤ f) (S : List (Ieee f e E)) (hS : ∀ x ∈ S, x.isFinite = true) (hr : StepsResolved S) :
    EMD.extremaIdx S = EMD.extremaIdx (S.map val) := by
  apply extremaIdx_congr
  · simp
  · refine map_npDiff S hS _ _ (fun x y hx hy => bool_eq_of_iff ?_)
    rw [sub_beq_zero x y hx hy, lit_real_zero, beq_iff_eq]
  · refine map_npDiff S hS _ _ (fun x y hx hy => bool_eq_of_iff ?_)
    rw [decide_eq_true_iff, decide_eq_true_iff, sub_lt_zero x y hx hy, lit_real_zero]
  · refine map_npDiff S hS _ _ (fun x y hx hy => bool_eq_of_iff ?_)
    rw [decide_eq_true_iff, decide_eq_true_iff, zero_lt_sub x y hx hy, lit_real_zero]
  · apply List.ext_getElem
    · simp [npDiff_length']
    · intro i h1 h2
      simp only [List.getElem_zipWith, List.getElem_dropLast, List.getElem_tail, npDiff_getElem, List.getElem_map]
      simp only [List.length_zipWith, List.length_dropLast, List.length_tail, npDiff_length'] at h1
      apply bool_eq_of_iff
      rw [decide_eq_true_iff, decide_eq_true_iff]
      refine Iff.trans ?_ (lt_lit_zero _)
      exact mul_steps hf _ _ _ (hS _ (List.getElem_mem _)) (hS _ (List.getElem_mem _)) (hS _ (List.getElem_mem _))
        (hr i _ _ _ (List.getElem?_eq_getElem (by omega)) (List.getElem?_eq_getElem (by omega)) (List.getElem?_eq_getElem (by omega)))

theorem zeroCrossings_val (S : List (Ieee f e E)) (hS : ∀ x ∈ S, x.isFinite = true) (hr : SamplesResolved S) :
    EMD.zeroCrossings S = EMD.zeroCrossings (S.map val) := by
  apply zeroCrossings_congr
  · apply List.ext_getElem
    · simp
    · intro i h1 h2
      simp only [List.getElem_map]
      apply bool_eq_of_iff
      exact (val_eq_zero _ (hS _ (List.getElem_mem _))).trans (beq_lit_zero _)
  · apply List.ext_getElem
    · simp
    · intro i h1 h2
      simp only [List.getElem_zipWith, List.getElem_dropLast, List.getElem_tail, List.getElem_map]
      simp only [List.length_zipWith, List.length_dropLast, List.length_tail] at h1
      apply bool_eq_of_iff
      rw [decide_eq_true_iff, decide_eq_true_iff]
      refine Iff.trans ?_ (lt_lit_zero _)
      exact mul_samples _ _ (hS _ (List.getElem_mem _)) (hS _ (List.getElem_mem _))
        (hr i _ _ (List.getElem?_eq_getElem (by omega)) (List.getElem?_eq_getElem (by omega)))

end Ieee
end PyEMD
