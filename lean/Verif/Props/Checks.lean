import Verif.Spec.Checks
import Verif.Props.EmdExact
import Mathlib.Analysis.Complex.ExponentialBounds
import Mathlib.Data.Rat.Floor
import Mathlib.Tactic.FieldSimp
import Mathlib.Tactic.Ring
import Mathlib.Tactic.Linarith
import Mathlib.Tactic.NormNum
import Mathlib.Tactic.Positivity

/-!
# C51, C52, C53, C65: the white-noise test
-/

set_option linter.unusedSectionVars false

namespace PyEMD
namespace Checks

section LawFree

variable {α : Type} [Add α] [Sub α] [Mul α] [Div α] [Neg α] [LT α] [LE α] [BEq α]
  [DecidableLT α] [DecidableLE α] [NpScalar α]

theorem collect_spec (flag : Nat → List α → PyM Int) : ∀ (imfs : List (List α)) (i : Nat) (out : List (Nat × Int)),
    collect flag i imfs = .ok out → out.length = imfs.length ∧
      ∀ (j : Nat) (imf : List α), imfs[j]? = some imf → ∃ f, flag (i + j) imf = .ok f ∧ out[j]? = some (i + j + 1, f)
  | [], i, out, h => by
    simp only [collect, Except.ok.injEq] at h
    subst h
    simp
  | imf :: imfs, i, out, h => by
    simp only [collect] at h
    obtain ⟨f, hf, h⟩ := bind_eq_ok.1 h
    obtain ⟨rest, hr, h⟩ := bind_eq_ok.1 h
    have h := pure_eq_ok.1 h
    subst h
    obtain ⟨hl, hj⟩ := collect_spec flag imfs (i + 1) rest hr
    refine ⟨by simp [hl], ?_⟩
    intro j im him
    cases j with
    | zero =>
      simp only [List.getElem?_cons_zero, Option.some.injEq] at him
      subst him
      exact ⟨f, hf, rfl⟩
    | succ j =>
      simp only [List.getElem?_cons_succ] at him ⊢
      obtain ⟨g, hg, ho⟩ := hj j im him
      refine ⟨g, ?_, ?_⟩
      · rw [← hg]; congr 1; omega
      · rw [ho]; congr 2; omega

theorem collect_ok (flag : Nat → List α → PyM Int) : ∀ (imfs : List (List α)) (i : Nat),
    (∀ (j : Nat) (imf : List α), imfs[j]? = some imf → ∃ f, flag (i + j) imf = .ok f) →
      ∃ out, collect flag i imfs = .ok out
  | [], i, _ => ⟨[], rfl⟩
  | imf :: imfs, i, h => by
    obtain ⟨f, hf⟩ := h 0 imf rfl
    obtain ⟨rest, hr⟩ := collect_ok flag imfs (i + 1) (fun j im him => by
      obtain ⟨g, hg⟩ := h (j + 1) im (by simpa using him)
      exact ⟨g, by rw [← hg]; congr 1; omega⟩)
    refine ⟨(i + 1, f) :: rest, ?_⟩
    simp only [collect]
    exact bind_eq_ok.2 ⟨f, hf, bind_eq_ok.2 ⟨rest, hr, rfl⟩⟩

/-- The values of the dictionary are 0 and 1, its keys number the components from 1. -/
def FlagsOf (n : Nat) (out : List (Nat × Int)) : Prop :=
  out.length = n ∧ ∀ j < n, out[j]? = some (j + 1, 0) ∨ out[j]? = some (j + 1, 1)

/-- The arguments that the function documents. -/
def ArgsOk (M : MathFns α) (n : Nat) (test_name : String) (rescaling_imf : Arg Int) (alpha : Arg α) : Prop :=
  (∃ a, alpha = .val a ∧ lit 0 < a ∧ a < lit 1) ∧ (test_name = "apriori" ∨ test_name = "aposteriori") ∧
    ∃ r : Int, rescaling_imf = .val r ∧ 1 ≤ r ∧ r ≤ n

theorem flag_bool {M : MathFns α} {N : Nat} {a : α} {imf : List α} {f : Int} (h : aprioriFlag M N a imf = .ok f) :
    f = 0 ∨ f = 1 := by
  simp only [aprioriFlag] at h
  obtain ⟨_, _, h⟩ := bind_eq_ok.1 h
  obtain ⟨_, _, h⟩ := bind_eq_ok.1 h
  obtain ⟨b, _, h⟩ := bind_eq_ok.1 h
  have h := pure_eq_ok.1 h
  subst h
  cases b <;> simp [b2i]

theorem flag_bool' {M : MathFns α} {N : Nat} {a s : α} {r : Int} {idx : Nat} {imf : List α} {f : Int}
    (h : aposterioriFlag M N a s r idx imf = .ok f) : f = 0 ∨ f = 1 := by
  simp only [aposterioriFlag] at h
  obtain ⟨_, _, h⟩ := bind_eq_ok.1 h
  split at h
  all_goals
    obtain ⟨_, _, h⟩ := bind_eq_ok.1 h
    obtain ⟨b, _, h⟩ := bind_eq_ok.1 h
    have h := pure_eq_ok.1 h
    subst h
    cases b <;> simp [b2i]

/-- The function with valid arguments. -/
theorem check_valid (M : MathFns α) {imfs : List (List α)} {a : α} {test : String} {r : Int}
    (hne : imfs ≠ []) (hne' : (imfs.headD []).length ≠ 0) (ha : lit 0 < a) (ha' : a < lit 1)
    (ht : test = "apriori" ∨ test = "aposteriori") (hr : 1 ≤ r) (hr' : r ≤ imfs.length)
    (hnan : ∀ imf ∈ imfs, ∀ x ∈ imf, M.isnan x = false) :
    whitenoiseCheck M (.val imfs) test (.val r) (.val a) =
      if test = "apriori" then
        (collect (fun _ imf => aprioriFlag M (imfs.headD []).length a imf) 0 imfs).map some
      else (pyGet imfs (r - 1)).bind fun ref => (scalingFactor M (imfs.headD []).length a ref).bind fun s =>
        (collect (aposterioriFlag M (imfs.headD []).length a s r) 0 imfs).map some := by
  have h1 : ¬ (imfs.length = 0 ∨ (imfs.headD []).length = 0) := by
    rintro (h | h)
    · exact hne (List.length_eq_zero_iff.1 h)
    · exact hne' h
  have h2 : imfs.any (fun imf => imf.any M.isnan) = false := by
    rw [List.any_eq_false]
    intro imf himf
    rw [List.any_eq_true]
    rintro ⟨x, hx, hxx⟩
    rw [hnan imf himf x hx] at hxx
    exact absurd hxx (by simp)
  have h3 : 0 < r ∧ r ≤ imfs.length := ⟨by omega, hr'⟩
  simp only [whitenoiseCheck, h1, ha, ha', ht, h2, h3, not_true_eq_false, and_self, if_false, Bool.false_eq_true]
  split
  · cases collect (fun _ imf => aprioriFlag M (imfs.headD []).length a imf) 0 imfs <;> rfl
  · simp only [bind, Except.bind, pure, Except.pure]
    cases pyGet imfs (r - 1) with
    | error e => rfl
    | ok ref =>
      simp only
      cases scalingFactor M (imfs.headD []).length a ref with
      | error e => rfl
      | ok s =>
        simp only
        cases collect (aposterioriFlag M (imfs.headD []).length a s r) 0 imfs <;> rfl

/-- **C51.**  Anything but a numpy array, and any invalid `alpha`, `test_name` or `rescaling_imf` with a non-empty array, raises
`AssertionError`. -/
theorem C51_invalid (M : MathFns α) (test_name : String) (rescaling_imf : Arg Int) (alpha : Arg α) :
    whitenoiseCheck M .wrongType test_name rescaling_imf alpha = .error .assertionError ∧
    ∀ imfs : List (List α), imfs ≠ [] → imfs.headD [] ≠ [] → ¬ ArgsOk M imfs.length test_name rescaling_imf alpha →
      whitenoiseCheck M (.val imfs) test_name rescaling_imf alpha = .error .assertionError := by
  refine ⟨rfl, ?_⟩
  intro imfs hne hne' hbad
  have h1 : ¬ (imfs.length = 0 ∨ (imfs.headD []).length = 0) := by
    rintro (h | h)
    · exact hne (List.length_eq_zero_iff.1 h)
    · exact hne' (List.length_eq_zero_iff.1 h)
  simp only [whitenoiseCheck, h1, if_false]
  cases alpha with
  | wrongType => rfl
  | val a =>
    by_cases ha : lit 0 < a ∧ a < lit 1
    · by_cases ht : test_name = "apriori" ∨ test_name = "aposteriori"
      · cases rescaling_imf with
        | wrongType => simp [ha, ht]
        | val r =>
          have hr : ¬ (0 < r ∧ r ≤ imfs.length) := by
            intro hr
            exact hbad ⟨⟨a, rfl, ha⟩, ht, r, rfl, by omega, hr.2⟩
          simp only [ha, ht, hr, not_false_eq_true, not_true_eq_false, if_true, if_false, and_self]
      · simp only [ha, ht, not_false_eq_true, not_true_eq_false, if_true, if_false, and_self]
    · simp only [ha, not_false_eq_true, if_true]

/-- **C51.**  Empty input gives `None` whatever the other arguments are; an input with a NaN and valid arguments gives `None`. -/
theorem C51_none (M : MathFns α) (test_name : String) (rescaling_imf : Arg Int) (alpha : Arg α) (imfs : List (List α)) :
    (imfs = [] ∨ imfs.head? = some [] →
      whitenoiseCheck M (.val imfs) test_name rescaling_imf alpha = .ok none) ∧
    (ArgsOk M imfs.length test_name rescaling_imf alpha → (∃ imf ∈ imfs, ∃ x ∈ imf, M.isnan x = true) →
      whitenoiseCheck M (.val imfs) test_name rescaling_imf alpha = .ok none) := by
  constructor
  · rintro (h | h)
    · subst h; simp [whitenoiseCheck]
    · have : (imfs.headD []).length = 0 := by
        rw [List.headD_eq_head?_getD, h]; rfl
      simp only [whitenoiseCheck, this, or_true, if_true]
  · rintro ⟨⟨a, rfl, ha, ha'⟩, ht, r, rfl, hr, hr'⟩ ⟨imf, himf, x, hx, hxx⟩
    by_cases h1 : imfs.length = 0 ∨ (imfs.headD []).length = 0
    · simp only [whitenoiseCheck, h1, if_true]
    · have h2 : imfs.any (fun imf => imf.any M.isnan) = true := by
        rw [List.any_eq_true]
        exact ⟨imf, himf, List.any_eq_true.2 ⟨x, hx, hxx⟩⟩
      have h3 : 0 < r ∧ r ≤ imfs.length := ⟨by omega, hr'⟩
      simp only [whitenoiseCheck, h1, ha, ha', ht, h2, h3, not_true_eq_false, and_self, if_false, if_true]

/-- **C51.**  A result has one flag per component, numbered from 1, each 0 or 1, and is only given for non-empty NaN-free arrays and
valid arguments. -/
theorem C51_flags (M : MathFns α) (test_name : String) (rescaling_imf : Arg Int) (alpha : Arg α) (imfs : List (List α))
    (out : List (Nat × Int)) (h : whitenoiseCheck M (.val imfs) test_name rescaling_imf alpha = .ok (some out)) :
    FlagsOf imfs.length out ∧ ArgsOk M imfs.length test_name rescaling_imf alpha ∧ imfs ≠ [] ∧
      ∀ imf ∈ imfs, ∀ x ∈ imf, M.isnan x = false := by
  have hne : imfs ≠ [] ∧ imfs.headD [] ≠ [] := by
    constructor
    · rintro rfl
      simp [whitenoiseCheck] at h
    · intro hh
      simp only [whitenoiseCheck, hh, List.length_nil, or_true, if_true] at h
      exact absurd h (by simp)
  have hok : ArgsOk M imfs.length test_name rescaling_imf alpha := by
    by_contra hbad
    rw [(C51_invalid M test_name rescaling_imf alpha).2 imfs hne.1 hne.2 hbad] at h
    exact absurd h (by simp)
  have hnan : ∀ imf ∈ imfs, ∀ x ∈ imf, M.isnan x = false := by
    intro imf himf x hx
    by_contra hxx
    have hxx : M.isnan x = true := by simpa using hxx
    rw [(C51_none M test_name rescaling_imf alpha imfs).2 hok ⟨imf, himf, x, hx, hxx⟩] at h
    exact absurd h (by simp)
  refine ⟨?_, hok, hne.1, hnan⟩
  obtain ⟨⟨a, rfl, ha, ha'⟩, ht, r, rfl, hr, hr'⟩ := hok
  rw [check_valid M hne.1 (by simpa using hne.2) ha ha' ht hr hr' hnan] at h
  have key : ∀ flag : Nat → List α → PyM Int, (∀ i imf f, flag i imf = .ok f → f = 0 ∨ f = 1) →
      (collect flag 0 imfs).map some = .ok (some out) → FlagsOf imfs.length out := by
    intro flag hflag hc
    cases hcc : collect flag 0 imfs with
    | error e => rw [hcc] at hc; exact absurd hc (by simp [Except.map])
    | ok o =>
      rw [hcc] at hc
      simp only [Except.map, Except.ok.injEq, Option.some.injEq] at hc
      subst hc
      obtain ⟨hl, hj⟩ := collect_spec flag imfs 0 o hcc
      refine ⟨hl, fun j hjn => ?_⟩
      obtain ⟨f, hf, ho⟩ := hj j imfs[j] (List.getElem?_eq_getElem hjn)
      rw [ho]
      rcases hflag _ _ _ hf with rfl | rfl
      · left; simp
      · right; simp
  split at h
  · exact key _ (fun _ _ _ hf => flag_bool hf) h
  · cases hg : pyGet imfs (r - 1) with
    | error e => rw [hg] at h; exact absurd h (by simp [Except.bind])
    | ok ref =>
      rw [hg] at h
      simp only [Except.bind] at h
      cases hs : scalingFactor M (imfs.headD []).length a ref with
      | error e => rw [hs] at h; exact absurd h (by simp)
      | ok s =>
        rw [hs] at h
        exact key _ (fun _ _ _ hf => flag_bool' hf) h

end LawFree

/-- Stand-ins for the external functions, computable on rational numbers; 1000 plays the part of NaN. -/
def stubFns : MathFns ℚ where
  log x := if 0 < x then .ok (x - 2) else .error .valueError
  exp x := .ok (1 + x + x * x)
  sqrt x := x
  ppf x := x - 1 / 2
  peaks l := l.length / 3
  isnan x := x == 1000

/-- A list is rejected; so are a level of 1, an unknown test and a rescaling component that does not exist. -/
example : errIs .assertionError (whitenoiseCheck stubFns .wrongType "apriori" (.val 1) (.val (1 / 2))) = true ∧
    ¬ ArgsOk stubFns 2 "apriori" (.val 1) (.val (1 : ℚ)) ∧
    ¬ ArgsOk stubFns 2 "posterior" (.val 1) (.val (1 / 2 : ℚ)) ∧
    ¬ ArgsOk stubFns 2 "aposteriori" (.val 3) (.val (1 / 2 : ℚ)) ∧
    ArgsOk stubFns 2 "aposteriori" (.val 2) (.val (1 / 2 : ℚ)) := by
  refine ⟨by decide +kernel, ?_, ?_, ?_, ?_⟩
  · rintro ⟨⟨a, h, _, h2⟩, _⟩
    cases h
    exact absurd h2 (by decide +kernel)
  · rintro ⟨_, h | h, _⟩
    · exact absurd h (by decide)
    · exact absurd h (by decide)
  · rintro ⟨_, _, r, h, _, h2⟩
    cases h
    exact absurd h2 (by decide)
  · exact ⟨⟨_, rfl, by decide +kernel, by decide +kernel⟩, Or.inr rfl, 2, rfl, by decide, by decide⟩

/-- Empty arrays and arrays with a NaN give `None`. -/
example : okWith (· == none) (whitenoiseCheck stubFns (.val []) "posterior" .wrongType .wrongType) = true ∧
    okWith (· == none) (whitenoiseCheck stubFns (.val [[], []]) "posterior" .wrongType .wrongType) = true ∧
    okWith (· == none) (whitenoiseCheck stubFns (.val [[1, 2], [1000, 3]]) "apriori" (.val 2) (.val (1 / 2))) = true := by
  decide +kernel

/-- Both flags occur. -/
example : okWith (· == some [(1, 1), (2, 0)])
    (whitenoiseCheck stubFns (.val [[5, -7, 3], [1, -1, 1]]) "apriori" (.val 1) (.val (99 / 100))) = true := by
  decide +kernel

/-! ## Over the real numbers -/

section Real

open Spec

variable {ppf : ℝ → ℝ} {peaks : List ℝ → ℕ}

theorem energy_eq (imf : List ℝ) : energy imf = (imf.map (fun x => x ^ 2)).sum := by
  unfold energy
  rw [lit_zero, ← List.sum_eq_foldl]
  congr 1
  exact List.map_congr_left (fun x _ => by ring)

theorem energy_div (imf : List ℝ) (N : ℕ) : energy imf / lit (N : ℚ) = density imf N := by
  rw [energy_eq, density, lit_nat]

theorem meanPeriod_eq (imf : List ℝ) : meanPeriod (realFns ppf peaks) imf = period peaks imf := by
  unfold meanPeriod period realFns
  simp only [lit_nat]
  by_cases h : peaks imf = 0
  · simp [h]
  · simp [h, Nat.pos_of_ne_zero h]

theorem quantile_eq (a : ℝ) : quantile (realFns ppf peaks) a = width ppf a := by
  unfold quantile width realFns
  rw [pyAbs_eq, lit_one, lit_two]

theorem period_pos {imf : List ℝ} (h : imf ≠ []) : 0 < period peaks imf := by
  have hl : (0 : ℝ) < imf.length := by exact_mod_cast List.length_pos_iff.2 h
  unfold period
  split
  · exact hl
  · rename_i hp
    have : (0 : ℝ) < peaks imf := by exact_mod_cast Nat.pos_of_ne_zero hp
    positivity

theorem density_pos {imf : List ℝ} {N : ℕ} (hN : 0 < N) (h : NonZero imf) : 0 < density imf N := by
  obtain ⟨x, hx, hx0⟩ := h
  have hN : (0 : ℝ) < N := by exact_mod_cast hN
  refine div_pos ?_ hN
  have hnn : ∀ y ∈ imf.map (fun x : ℝ => x ^ 2), 0 ≤ y := by
    intro y hy
    obtain ⟨z, _, rfl⟩ := List.mem_map.1 hy
    positivity
  have hle := List.single_le_sum hnn (x ^ 2) (List.mem_map.2 ⟨x, hx, rfl⟩)
  have : 0 < x ^ 2 := by positivity
  linarith

theorem width_nonneg (a : ℝ) : 0 ≤ width ppf a := abs_nonneg _

theorem width_pos (hq : NormalQuantile ppf) {a : ℝ} (ha : 0 < a) (ha' : a < 1) : 0 < width ppf a := by
  have := hq.increasing ((1 - a) / 2) (1 / 2) (by linarith) (by linarith) (by norm_num)
  rw [hq.median] at this
  exact abs_pos.2 (ne_of_lt this)

theorem width_mono (hq : NormalQuantile ppf) {a b : ℝ} (ha : 0 < a) (hab : a ≤ b) (hb : b < 1) : width ppf a ≤ width ppf b := by
  have h1 : ppf ((1 - b) / 2) < 0 := by
    have := hq.increasing ((1 - b) / 2) (1 / 2) (by linarith) (by linarith) (by norm_num)
    rwa [hq.median] at this
  have h2 : ppf ((1 - a) / 2) < 0 := by
    have := hq.increasing ((1 - a) / 2) (1 / 2) (by linarith) (by linarith) (by norm_num)
    rwa [hq.median] at this
  unfold width
  rw [abs_of_neg h1, abs_of_neg h2]
  rcases eq_or_lt_of_le hab with rfl | hlt
  · exact le_refl _
  · have := hq.increasing ((1 - b) / 2) ((1 - a) / 2) (by linarith) (by linarith) (by linarith)
    linarith

theorem log_ok {x : ℝ} (h : 0 < x) : (realFns ppf peaks).log x = .ok (Real.log x) := by
  simp [realFns, h]

/-- The a-priori decision for a given logarithm of the density and of the period. -/
theorem significanceApriori_eq (v P : ℝ) (hP : 0 < P) (N : ℕ) (a : ℝ) :
    ∃ b, significanceApriori (realFns ppf peaks) v (Real.log P) N a = .ok b ∧
      (b = true ↔ width ppf a * (√(2 / N) * √P) < |v + Real.log P|) := by
  refine ⟨_, rfl, ?_⟩
  simp only [quantile_eq, lit_two, lit_nat]
  simp only [realFns, Real.exp_half, Real.exp_log hP]
  rw [Bool.not_eq_true', Bool.and_eq_false_iff, decide_eq_false_iff_not, decide_eq_false_iff_not, lt_abs]
  constructor
  · rintro (h | h)
    · right; linarith
    · left; linarith
  · rintro (h | h)
    · right; linarith
    · left; linarith

/-- The a-posteriori decision for a given logarithm of the scaled density and of the period. -/
theorem significanceAposteriori_eq (v P : ℝ) (hP : 0 < P) (N : ℕ) (a : ℝ) :
    ∃ b, significanceAposteriori (realFns ppf peaks) v (Real.log P) N a = .ok b ∧
      (b = true ↔ width ppf a * (√(2 / N) * √P) < v + Real.log P) := by
  refine ⟨_, rfl, ?_⟩
  simp only [quantile_eq, lit_two, lit_nat]
  simp only [realFns, Real.exp_half, Real.exp_log hP]
  rw [Bool.not_eq_true', decide_eq_false_iff_not]
  constructor
  · intro h; linarith
  · intro h; linarith

theorem NonZero.ne_nil {imf : List ℝ} (h : NonZero imf) : imf ≠ [] := by
  rintro rfl
  obtain ⟨x, hx, _⟩ := h
  simp at hx

open Classical in
/-- The decision of the a-priori test in plain terms. -/
theorem aprioriFlag_eq {imf : List ℝ} {N : ℕ} (hN : 0 < N) (h : NonZero imf) (a : ℝ) :
    aprioriFlag (realFns ppf peaks) N a imf =
      .ok (if OutsideBand (width ppf a) N (period peaks imf) (density imf N) then 1 else 0) := by
  have hP := period_pos (peaks := peaks) (NonZero.ne_nil h)
  have hE := density_pos hN h
  obtain ⟨b, hb, hbi⟩ := significanceApriori_eq (ppf := ppf) (peaks := peaks) (Real.log (density imf N)) _ hP N a
  unfold aprioriFlag
  rw [meanPeriod_eq, energy_div]
  refine bind_eq_ok.2 ⟨_, log_ok hP, bind_eq_ok.2 ⟨_, log_ok hE, bind_eq_ok.2 ⟨b, hb, ?_⟩⟩⟩
  refine pure_eq_ok.2 ?_
  unfold OutsideBand b2i
  by_cases hc : b = true
  · rw [if_pos hc, if_pos (hbi.1 hc)]
  · rw [if_neg hc, if_neg (fun h => hc (hbi.2 h))]

/-- Logarithm of the scaling factor. -/
noncomputable def upLimit (ppf : ℝ → ℝ) (peaks : List ℝ → ℕ) (N : ℕ) (a : ℝ) (ref : List ℝ) : ℝ :=
  -Real.log (period peaks ref) + width ppf a * √(2 / N) * period peaks ref / 2

theorem scalingFactor_eq {imf : List ℝ} {N : ℕ} (hN : 0 < N) (h : NonZero imf) (a : ℝ) :
    scalingFactor (realFns ppf peaks) N a imf = .ok (Real.exp (upLimit ppf peaks N a imf)) := by
  have hP := period_pos (peaks := peaks) (NonZero.ne_nil h)
  have hE := density_pos hN h
  unfold scalingFactor
  rw [meanPeriod_eq, energy_div]
  refine bind_eq_ok.2 ⟨_, log_ok hP, bind_eq_ok.2 ⟨_, log_ok hE, bind_eq_ok.2 ⟨_, rfl, ?_⟩⟩⟩
  simp only [quantile_eq, lit_two, lit_nat]
  simp only [realFns, Real.exp_log hP, upLimit]

/-- The (logarithmic) density that the a-posteriori test compares with the band. -/
noncomputable def scaledLog (u : ℝ) (r : ℤ) (idx N : ℕ) (imf : List ℝ) : ℝ :=
  if (idx : ℤ) ≠ r - 1 then Real.log (density imf N) - u else u

open Classical in
/-- The decision of the a-posteriori test in plain terms. -/
theorem aposterioriFlag_eq {imf : List ℝ} {N : ℕ} (hN : 0 < N) (h : NonZero imf) (a u : ℝ) (r : ℤ) (idx : ℕ) :
    aposterioriFlag (realFns ppf peaks) N a (Real.exp u) r idx imf =
      .ok (if width ppf a * (√(2 / N) * √(period peaks imf)) <
          scaledLog u r idx N imf + Real.log (period peaks imf) then 1 else 0) := by
  have hP := period_pos (peaks := peaks) (NonZero.ne_nil h)
  have hE := density_pos hN h
  have hu := Real.exp_pos u
  have hE' : 0 < density imf N / Real.exp u := div_pos hE hu
  have hlog : Real.log (density imf N / Real.exp u) = Real.log (density imf N) - u := by
    rw [Real.log_div (ne_of_gt hE) (ne_of_gt hu), Real.log_exp]
  unfold aposterioriFlag scaledLog
  rw [meanPeriod_eq, energy_div]
  refine bind_eq_ok.2 ⟨_, log_ok hP, ?_⟩
  by_cases hidx : (idx : ℤ) ≠ r - 1
  · rw [if_pos hidx, if_pos hidx]
    obtain ⟨b, hb, hbi⟩ := significanceAposteriori_eq (ppf := ppf) (peaks := peaks) (Real.log (density imf N) - u) _ hP N a
    refine bind_eq_ok.2 ⟨_, (log_ok hE').trans (by rw [hlog]), bind_eq_ok.2 ⟨b, hb, pure_eq_ok.2 ?_⟩⟩
    unfold b2i
    by_cases hc : b = true
    · rw [if_pos hc, if_pos (hbi.1 hc)]
    · rw [if_neg hc, if_neg (fun h => hc (hbi.2 h))]
  · rw [if_neg hidx, if_neg hidx]
    obtain ⟨b, hb, hbi⟩ := significanceAposteriori_eq (ppf := ppf) (peaks := peaks) u _ hP N a
    refine bind_eq_ok.2 ⟨_, (log_ok hu).trans (by rw [Real.log_exp]), bind_eq_ok.2 ⟨b, hb, pure_eq_ok.2 ?_⟩⟩
    unfold b2i
    by_cases hc : b = true
    · rw [if_pos hc, if_pos (hbi.1 hc)]
    · rw [if_neg hc, if_neg (fun h => hc (hbi.2 h))]

theorem headD_length {imfs : List (List ℝ)} {N : ℕ} (h : Rectangular imfs N) : (imfs.headD []).length = N := by
  obtain ⟨_, hne, hr⟩ := h
  cases imfs with
  | nil => exact absurd rfl hne
  | cons x xs => exact hr x (by simp)

open Classical in
/-- The a-priori test on non-vanishing components. -/
theorem check_apriori {imfs : List (List ℝ)} {N : ℕ} (hrect : Rectangular imfs N) (hnz : ∀ imf ∈ imfs, NonZero imf)
    {a : ℝ} (ha : 0 < a) (ha' : a < 1) {r : ℤ} (hr : 1 ≤ r) (hr' : r ≤ imfs.length) :
    ∃ out, whitenoiseCheck (realFns ppf peaks) (.val imfs) "apriori" (.val r) (.val a) = .ok (some out) ∧
      out.length = imfs.length ∧ ∀ (j : ℕ) (imf : List ℝ), imfs[j]? = some imf →
        out[j]? = some (j + 1, if OutsideBand (width ppf a) N (period peaks imf) (density imf N) then 1 else 0) := by
  rw [check_valid _ hrect.2.1 (by rw [headD_length hrect]; exact hrect.1.ne') (by rwa [lit_zero]) (by rwa [lit_one])
    (Or.inl rfl) hr hr' (fun _ _ _ _ => rfl), if_pos rfl, headD_length hrect]
  obtain ⟨out, hout⟩ := collect_ok (fun _ imf => aprioriFlag (realFns ppf peaks) N a imf) imfs 0
    (fun j imf him => ⟨_, aprioriFlag_eq hrect.1 (hnz imf (List.mem_of_getElem? him)) a⟩)
  obtain ⟨hl, hj⟩ := collect_spec _ _ _ _ hout
  refine ⟨out, by rw [hout]; rfl, hl, ?_⟩
  intro j imf him
  obtain ⟨f, hf, ho⟩ := hj j imf him
  rw [aprioriFlag_eq hrect.1 (hnz imf (List.mem_of_getElem? him)) a, Except.ok.injEq] at hf
  rw [ho, hf, Nat.zero_add]

open Classical in
/-- The a-posteriori test on non-vanishing components. -/
theorem check_aposteriori {imfs : List (List ℝ)} {N : ℕ} (hrect : Rectangular imfs N) (hnz : ∀ imf ∈ imfs, NonZero imf)
    {a : ℝ} (ha : 0 < a) (ha' : a < 1) {i : ℕ} {ref : List ℝ} (hi : imfs[i]? = some ref) :
    ∃ out, whitenoiseCheck (realFns ppf peaks) (.val imfs) "aposteriori" (.val (i + 1 : ℕ)) (.val a) = .ok (some out) ∧
      out.length = imfs.length ∧ ∀ (j : ℕ) (imf : List ℝ), imfs[j]? = some imf →
        out[j]? = some (j + 1, if width ppf a * (√(2 / N) * √(period peaks imf)) <
          scaledLog (upLimit ppf peaks N a ref) (i + 1 : ℕ) j N imf + Real.log (period peaks imf) then 1 else 0) := by
  have hil : i < imfs.length := (List.getElem?_eq_some_iff.1 hi).1
  rw [check_valid _ hrect.2.1 (by rw [headD_length hrect]; exact hrect.1.ne') (by rwa [lit_zero]) (by rwa [lit_one])
    (Or.inr rfl) (by omega) (by omega) (fun _ _ _ _ => rfl), if_neg (by decide), headD_length hrect]
  have hget : pyGet imfs (((i + 1 : ℕ) : ℤ) - 1) = .ok ref := by
    have : (((i + 1 : ℕ) : ℤ) - 1) = (i : ℤ) := by push_cast; ring
    rw [this]
    have hidx : pyIdx imfs.length (i : ℤ) = some i := by
      unfold pyIdx
      simp only [Int.natCast_nonneg, Int.toNat_natCast]
      simp [hil]
    simp only [pyGet, hidx, hi]
  obtain ⟨out, hout⟩ := collect_ok
    (aposterioriFlag (realFns ppf peaks) N a (Real.exp (upLimit ppf peaks N a ref)) (i + 1 : ℕ)) imfs 0
    (fun j imf him => ⟨_, aposterioriFlag_eq hrect.1 (hnz imf (List.mem_of_getElem? him)) a _ _ _⟩)
  obtain ⟨hl, hj⟩ := collect_spec _ _ _ _ hout
  refine ⟨out, ?_, hl, ?_⟩
  · rw [hget]
    simp only [Except.bind]
    rw [scalingFactor_eq hrect.1 (hnz ref (List.mem_of_getElem? hi)) a]
    simp only
    rw [hout]
    rfl
  · intro j imf him
    obtain ⟨f, hf, ho⟩ := hj j imf him
    rw [aposterioriFlag_eq hrect.1 (hnz imf (List.mem_of_getElem? him)) a, Except.ok.injEq] at hf
    rw [ho, ← hf, Nat.zero_add]

/-- A quantile function of the assumed kind. -/
theorem sampleQuantile : NormalQuantile (fun p => p - 1 / 2) := ⟨fun _ _ _ h _ => by linarith, by norm_num⟩

/-- One peak per five samples. -/
def samplePeaks (l : List ℝ) : ℕ := l.length / 5

/-- Two components. -/
def sampleIMFs : List (List ℝ) := [[1, -1, 1, -1, 0], [3, 3, -3, -3, 3]]

theorem sampleIMFs_rect : Rectangular sampleIMFs 5 := by
  refine ⟨by norm_num, by simp [sampleIMFs], ?_⟩
  intro imf h
  simp only [sampleIMFs, List.mem_cons, List.not_mem_nil, or_false] at h
  rcases h with rfl | rfl <;> rfl

theorem sampleIMFs_nz : ∀ imf ∈ sampleIMFs, NonZero imf := by
  intro imf h
  simp only [sampleIMFs, List.mem_cons, List.not_mem_nil, or_false] at h
  rcases h with rfl | rfl
  · exact ⟨1, by simp, by norm_num⟩
  · exact ⟨3, by simp, by norm_num⟩

theorem sample_args (test : String) (ht : test = "apriori" ∨ test = "aposteriori") :
    ArgsOk (realFns (fun p => p - 1 / 2) samplePeaks) sampleIMFs.length test (.val 1) (.val (1 / 2)) :=
  ⟨⟨1 / 2, rfl, by rw [lit_zero]; norm_num, by rw [lit_one]; norm_num⟩, ht, 1, rfl, le_refl _, by simp [sampleIMFs]⟩

/-- **C51, partial.**  With valid arguments and no NaN the test returns a dictionary, provided that no component vanishes
identically.  Missing: vanishing components (`C51_counterexample`). -/
theorem C51_total_partial {imfs : List (List ℝ)} {N : ℕ} (hrect : Rectangular imfs N) (hnz : ∀ imf ∈ imfs, NonZero imf)
    {test : String} {rescaling : Arg Int} {alpha : Arg ℝ}
    (hargs : ArgsOk (realFns ppf peaks) imfs.length test rescaling alpha) :
    ∃ out, whitenoiseCheck (realFns ppf peaks) (.val imfs) test rescaling alpha = .ok (some out) ∧
      FlagsOf imfs.length out := by
  obtain ⟨⟨a, rfl, ha, ha'⟩, ht, r, rfl, hr, hr'⟩ := id hargs
  rw [lit_zero] at ha
  rw [lit_one] at ha'
  have : ∃ out, whitenoiseCheck (realFns ppf peaks) (.val imfs) test (.val r) (.val a) = .ok (some out) := by
    rcases ht with rfl | rfl
    · obtain ⟨out, h, _⟩ := check_apriori (ppf := ppf) (peaks := peaks) hrect hnz ha ha' hr hr'
      exact ⟨out, h⟩
    · obtain ⟨i, rfl⟩ : ∃ i : ℕ, r = (i + 1 : ℕ) := ⟨(r - 1).toNat, by omega⟩
      have hi : i < imfs.length := by omega
      obtain ⟨out, h, _⟩ := check_aposteriori (ppf := ppf) (peaks := peaks) hrect hnz ha ha' (List.getElem?_eq_getElem hi)
      exact ⟨out, h⟩
  obtain ⟨out, hout⟩ := this
  exact ⟨out, hout, (C51_flags _ _ _ _ _ _ hout).1⟩

/-- The hypotheses hold for two components of five samples. -/
example : ∃ out, whitenoiseCheck (realFns (fun p => p - 1 / 2) samplePeaks) (.val sampleIMFs) "aposteriori" (.val 1)
    (.val (1 / 2)) = .ok (some out) ∧ FlagsOf 2 out :=
  C51_total_partial sampleIMFs_rect sampleIMFs_nz (sample_args _ (Or.inr rfl))

theorem collect_error (flag : Nat → List ℝ → PyM Int) : ∀ (imfs : List (List ℝ)) (i : Nat),
    (∀ (j : Nat) (imf : List ℝ), imfs[j]? = some imf → (∃ f, flag (i + j) imf = .ok f) ∨ flag (i + j) imf = .error .valueError) →
    (∃ (j : Nat) (imf : List ℝ), imfs[j]? = some imf ∧ flag (i + j) imf = .error .valueError) →
      collect flag i imfs = .error .valueError
  | [], i, _, ⟨j, imf, h, _⟩ => by simp at h
  | imf :: imfs, i, hall, hex => by
    simp only [collect]
    rcases hall 0 imf rfl with ⟨f, hf⟩ | hf
    · rw [Nat.add_zero] at hf
      have := collect_error flag imfs (i + 1) (fun j im him => by
        have := hall (j + 1) im (by simpa using him)
        rwa [show i + 1 + j = i + (j + 1) by omega]) (by
        obtain ⟨j, im, him, he⟩ := hex
        cases j with
        | zero =>
          simp only [List.getElem?_cons_zero, Option.some.injEq] at him
          subst him
          rw [Nat.add_zero, hf] at he
          exact absurd he (by simp)
        | succ j => exact ⟨j, im, by simpa using him, by rwa [show i + 1 + j = i + (j + 1) by omega]⟩)
      rw [hf, this]
      rfl
    · rw [Nat.add_zero] at hf
      rw [hf]
      rfl

theorem density_zero {imf : List ℝ} (N : ℕ) (h : ¬ NonZero imf) : density imf N = 0 := by
  have h : ∀ x ∈ imf, x = 0 := by
    intro x hx
    by_contra hx0
    exact h ⟨x, hx, hx0⟩
  have hm : imf.map (fun x : ℝ => x ^ 2) = imf.map (fun _ => (0 : ℝ)) :=
    List.map_congr_left (fun x hx => by rw [h x hx]; norm_num)
  unfold density
  rw [hm]
  simp

theorem log_zero' : (realFns ppf peaks).log 0 = .error .valueError := by simp [realFns]

theorem aprioriFlag_zero {imf : List ℝ} {N : ℕ} (hne : imf ≠ []) (h : ¬ NonZero imf) (a : ℝ) :
    aprioriFlag (realFns ppf peaks) N a imf = .error .valueError := by
  unfold aprioriFlag
  rw [meanPeriod_eq, energy_div, density_zero N h, log_ok (period_pos hne), log_zero']
  rfl

theorem scalingFactor_zero {imf : List ℝ} {N : ℕ} (hne : imf ≠ []) (h : ¬ NonZero imf) (a : ℝ) :
    scalingFactor (realFns ppf peaks) N a imf = .error .valueError := by
  unfold scalingFactor
  rw [meanPeriod_eq, energy_div, density_zero N h, log_ok (period_pos hne), log_zero']
  rfl

theorem aposterioriFlag_zero {imf : List ℝ} {N : ℕ} (hne : imf ≠ []) (h : ¬ NonZero imf) (a s : ℝ) (r : ℤ) (idx : ℕ)
    (hidx : (idx : ℤ) ≠ r - 1) : aposterioriFlag (realFns ppf peaks) N a s r idx imf = .error .valueError := by
  unfold aposterioriFlag
  rw [meanPeriod_eq, energy_div, density_zero N h, log_ok (period_pos hne), zero_div, log_zero']
  simp only [bind, Except.bind, if_pos hidx]

/-- **C51 is violated.**  A component that vanishes identically makes both tests raise `ValueError`, whatever the other components
and the (valid) arguments are. -/
theorem C51_counterexample {imfs : List (List ℝ)} {N : ℕ} (hrect : Rectangular imfs N) (hz : ∃ imf ∈ imfs, ∀ x ∈ imf, x = 0)
    {test : String} {rescaling : Arg Int} {alpha : Arg ℝ}
    (hargs : ArgsOk (realFns ppf peaks) imfs.length test rescaling alpha) :
    whitenoiseCheck (realFns ppf peaks) (.val imfs) test rescaling alpha = .error .valueError := by
  obtain ⟨⟨a, rfl, ha, ha'⟩, ht, r, rfl, hr, hr'⟩ := id hargs
  obtain ⟨z, hz, hz0⟩ := hz
  have hz0 : ¬ NonZero z := by
    rintro ⟨x, hx, hx0⟩
    exact hx0 (hz0 x hx)
  have hne : ∀ imf ∈ imfs, imf ≠ [] := by
    intro imf himf hnil
    have := hrect.2.2 imf himf
    rw [hnil] at this
    have := hrect.1
    simp_all
  obtain ⟨jz, hjz⟩ := List.mem_iff_getElem?.1 hz
  rw [check_valid _ hrect.2.1 (by rw [headD_length hrect]; exact hrect.1.ne') ha ha' ht hr hr' (fun _ _ _ _ => rfl),
    headD_length hrect]
  by_cases htest : test = "apriori"
  · rw [if_pos htest, collect_error _ imfs 0 (fun j imf him => ?_) ⟨jz, z, hjz, aprioriFlag_zero (hne z hz) hz0 a⟩]
    · rfl
    · by_cases hn : NonZero imf
      · exact Or.inl ⟨_, aprioriFlag_eq hrect.1 hn a⟩
      · exact Or.inr (aprioriFlag_zero (hne imf (List.mem_of_getElem? him)) hn a)
  · rw [if_neg htest]
    obtain ⟨i, rfl⟩ : ∃ i : ℕ, r = (i + 1 : ℕ) := ⟨(r - 1).toNat, by omega⟩
    have hil : i < imfs.length := by omega
    have hget : pyGet imfs (((i + 1 : ℕ) : ℤ) - 1) = .ok imfs[i] := by
      have : (((i + 1 : ℕ) : ℤ) - 1) = (i : ℤ) := by push_cast; ring
      rw [this]
      have hidx : pyIdx imfs.length (i : ℤ) = some i := by
        unfold pyIdx
        simp only [Int.natCast_nonneg, Int.toNat_natCast]
        simp [hil]
      simp only [pyGet, hidx, List.getElem?_eq_getElem hil]
    rw [hget]
    simp only [Except.bind]
    by_cases href : NonZero imfs[i]
    · rw [scalingFactor_eq hrect.1 href a]
      simp only
      have hz1 : ∀ u, aposterioriFlag (realFns ppf peaks) N a u (i + 1 : ℕ) (0 + jz) z = .error .valueError := fun u =>
        aposterioriFlag_zero (hne z hz) hz0 a _ _ _ (by
          intro hj
          have hj : jz = i := by push_cast at hj; omega
          subst hj
          rw [List.getElem?_eq_getElem hil, Option.some.injEq] at hjz
          exact hz0 (hjz ▸ href))
      rw [collect_error _ imfs 0 (fun j imf him => ?_) ⟨jz, z, hjz, hz1 _⟩]
      · rfl
      · by_cases hn : NonZero imf
        · exact Or.inl ⟨_, aposterioriFlag_eq hrect.1 hn a _ _ _⟩
        · refine Or.inr (aposterioriFlag_zero (hne imf (List.mem_of_getElem? him)) hn a _ _ _ ?_)
          intro hj
          have hj : j = i := by push_cast at hj; omega
          subst hj
          rw [List.getElem?_eq_getElem hil, Option.some.injEq] at him
          exact hn (him ▸ href)
    · rw [scalingFactor_zero (hne _ (List.getElem_mem hil)) href a]

/-- A vanishing residue among the components. -/
example : whitenoiseCheck (realFns (fun p => p - 1 / 2) samplePeaks) (.val [[1, 2, 1], [0, 0, 0]]) "apriori" (.val 1)
    (.val (1 / 2)) = .error .valueError :=
  C51_counterexample (N := 3) ⟨by norm_num, by simp, by simp⟩ ⟨[0, 0, 0], by simp, by simp⟩
    ⟨⟨1 / 2, rfl, by rw [lit_zero]; norm_num, by rw [lit_one]; norm_num⟩, Or.inl rfl, 1, rfl, le_refl _, by simp⟩

/-- **C52.**  The a-priori flag of a component says that it lies outside the white-noise band. -/
theorem C52_apriori_rule {imfs : List (List ℝ)} {N : ℕ} (hrect : Rectangular imfs N) (hnz : ∀ imf ∈ imfs, NonZero imf)
    {a : ℝ} {r : ℤ} {out : List (ℕ × ℤ)}
    (h : whitenoiseCheck (realFns ppf peaks) (.val imfs) "apriori" (.val r) (.val a) = .ok (some out))
    {j : ℕ} {imf : List ℝ} (hj : imfs[j]? = some imf) :
    out[j]? = some (j + 1, 1) ↔ OutsideBand (width ppf a) N (period peaks imf) (density imf N) := by
  classical
  obtain ⟨⟨_, ha, ha0, ha1⟩, _, _, hr, hr1, hr2⟩ := (C51_flags _ _ _ _ _ _ h).2.1
  cases ha
  cases hr
  rw [lit_zero] at ha0
  rw [lit_one] at ha1
  obtain ⟨o, ho, _, hf⟩ := check_apriori (ppf := ppf) (peaks := peaks) hrect hnz ha0 ha1 hr1 hr2
  rw [h, Except.ok.injEq, Option.some.injEq] at ho
  subst ho
  rw [hf j imf hj]
  by_cases hc : OutsideBand (width ppf a) N (period peaks imf) (density imf N)
  · simp [hc]
  · simp [hc]

/-- The second sample component (mean square 9, five samples per peak) is flagged. -/
example : ∃ out, whitenoiseCheck (realFns (fun p => p - 1 / 2) samplePeaks) (.val sampleIMFs) "apriori" (.val 1)
    (.val (1 / 2)) = .ok (some out) ∧ out[1]? = some (2, 1) := by
  obtain ⟨out, h, _⟩ := C51_total_partial sampleIMFs_rect sampleIMFs_nz (sample_args "apriori" (Or.inl rfl))
  refine ⟨out, h, (C52_apriori_rule sampleIMFs_rect sampleIMFs_nz h (j := 1) rfl).2 ?_⟩
  have hP : period samplePeaks [3, 3, -3, -3, 3] = 5 := by simp [period, samplePeaks]
  have hE : density [3, 3, -3, -3, 3] 5 = 9 := by simp [density]; norm_num
  have hw : width (fun p => p - 1 / 2) (1 / 2) = 1 / 4 := by
    unfold width
    norm_num [abs_of_neg]
  rw [OutsideBand, hP, hE, hw, ← Real.sqrt_mul (by norm_num), ← Real.log_mul (by norm_num) (by norm_num)]
  have h1 : √((2 : ℝ) / (5 : ℕ) * 5) ≤ 2 := Real.sqrt_le_iff.2 ⟨by norm_num, by norm_num⟩
  have h2 : 1 < Real.log (9 * 5) := by
    rw [Real.lt_log_iff_exp_lt (by norm_num)]
    have := Real.exp_one_lt_d9
    linarith
  have h3 := le_abs_self (Real.log (9 * 5))
  have h4 : (1 : ℝ) / 4 * √((2 : ℝ) / (5 : ℕ) * 5) ≤ 1 / 4 * 2 := mul_le_mul_of_nonneg_left h1 (by norm_num)
  exact lt_of_le_of_lt h4 (lt_of_lt_of_le (by norm_num) (h2.le.trans h3))

/-- **C52.**  A component flagged at a level is flagged at every smaller level, in both tests. -/
theorem C52_monotone (hq : NormalQuantile ppf) {imfs : List (List ℝ)} {N : ℕ} (hrect : Rectangular imfs N)
    (hnz : ∀ imf ∈ imfs, NonZero imf) {test : String} {a b : ℝ} (ha : 0 < a) (hab : a ≤ b) {r : ℤ} {out out' : List (ℕ × ℤ)}
    (h : whitenoiseCheck (realFns ppf peaks) (.val imfs) test (.val r) (.val b) = .ok (some out))
    (h' : whitenoiseCheck (realFns ppf peaks) (.val imfs) test (.val r) (.val a) = .ok (some out'))
    {j : ℕ} (hflag : out[j]? = some (j + 1, 1)) : out'[j]? = some (j + 1, 1) := by
  classical
  obtain ⟨⟨hlen, _⟩, ⟨⟨_, hb, _, hb1⟩, ht, _, hr, hr1, hr2⟩, _⟩ := C51_flags _ _ _ _ _ _ h
  cases hb
  cases hr
  rw [lit_one] at hb1
  have hj : j < imfs.length := by
    rw [← hlen]
    exact (List.getElem?_eq_some_iff.1 hflag).1
  have hm := width_mono hq ha hab hb1
  have him := List.getElem?_eq_getElem hj
  rcases ht with rfl | rfl
  · rw [C52_apriori_rule hrect hnz h him] at hflag
    rw [C52_apriori_rule hrect hnz h' him]
    refine lt_of_le_of_lt ?_ hflag
    exact mul_le_mul_of_nonneg_right hm (by positivity)
  · obtain ⟨i, rfl⟩ : ∃ i : ℕ, r = (i + 1 : ℕ) := ⟨(r - 1).toNat, by omega⟩
    have hil : i < imfs.length := by omega
    have hi := List.getElem?_eq_getElem hil
    obtain ⟨o, ho, _, hf⟩ := check_aposteriori (ppf := ppf) (peaks := peaks) hrect hnz (lt_of_lt_of_le ha hab) hb1 hi
    obtain ⟨o', ho', _, hf'⟩ := check_aposteriori (ppf := ppf) (peaks := peaks) hrect hnz ha (lt_of_le_of_lt hab hb1) hi
    rw [h, Except.ok.injEq, Option.some.injEq] at ho
    rw [h', Except.ok.injEq, Option.some.injEq] at ho'
    subst ho ho'
    rw [hf j _ him] at hflag
    rw [hf' j _ him]
    have hc : width ppf b * (√(2 / N) * √(period peaks imfs[j])) <
          scaledLog (upLimit ppf peaks N b imfs[i]) (i + 1 : ℕ) j N imfs[j] + Real.log (period peaks imfs[j]) := by
      by_contra hc
      rw [if_neg hc] at hflag
      simp at hflag
    have hPi := period_pos (peaks := peaks) (NonZero.ne_nil (hnz imfs[i] (List.getElem_mem hil)))
    have hc' : width ppf a * (√(2 / N) * √(period peaks imfs[j])) <
          scaledLog (upLimit ppf peaks N a imfs[i]) (i + 1 : ℕ) j N imfs[j] + Real.log (period peaks imfs[j]) := by
      have hs : (0 : ℝ) ≤ √(2 / N) * √(period peaks imfs[j]) := by positivity
      have hs2 : (0 : ℝ) ≤ √(2 / N) * period peaks imfs[i] / 2 := by positivity
      have e1 := mul_le_mul_of_nonneg_right hm hs
      have e2 := mul_le_mul_of_nonneg_right hm hs2
      unfold scaledLog upLimit at hc ⊢
      split at hc
      · rename_i hij
        rw [if_pos hij]
        have : width ppf a * √(2 / N) * period peaks imfs[i] / 2 = width ppf a * (√(2 / N) * period peaks imfs[i] / 2) := by ring
        have : width ppf b * √(2 / N) * period peaks imfs[i] / 2 = width ppf b * (√(2 / N) * period peaks imfs[i] / 2) := by ring
        linarith
      · rename_i hij
        rw [if_neg hij]
        have hij : j = i := by push_cast at hij; omega
        subst hij
        set s := √(2 / (N : ℝ))
        set P := period peaks imfs[j]
        have hk := width_pos hq ha (lt_of_le_of_lt hab hb1)
        have hkb := width_pos hq (lt_of_lt_of_le ha hab) hb1
        have h1 : width ppf b * (s * √P) < width ppf b * (s * P / 2) := by
          have : width ppf b * s * P / 2 = width ppf b * (s * P / 2) := by ring
          linarith
        have h2 : s * √P < s * P / 2 := lt_of_mul_lt_mul_left h1 hkb.le
        have h3 := mul_lt_mul_of_pos_left h2 hk
        have : width ppf a * s * P / 2 = width ppf a * (s * P / 2) := by ring
        linarith
    rw [if_pos hc']

/-- The levels 1/4 and 1/2 on the sample components. -/
example : ∃ out out', whitenoiseCheck (realFns (fun p => p - 1 / 2) samplePeaks) (.val sampleIMFs) "aposteriori" (.val 1)
      (.val (1 / 2)) = .ok (some out) ∧
    whitenoiseCheck (realFns (fun p => p - 1 / 2) samplePeaks) (.val sampleIMFs) "aposteriori" (.val 1)
      (.val (1 / 4)) = .ok (some out') ∧ ∀ j : ℕ, out[j]? = some (j + 1, 1) → out'[j]? = some (j + 1, 1) := by
  obtain ⟨out, h, _⟩ := C51_total_partial sampleIMFs_rect sampleIMFs_nz (sample_args "aposteriori" (Or.inr rfl))
  obtain ⟨out', h', _⟩ := C51_total_partial (ppf := fun p => p - 1 / 2) (peaks := samplePeaks) sampleIMFs_rect sampleIMFs_nz
    (test := "aposteriori") (rescaling := .val 1) (alpha := .val (1 / 4))
    ⟨⟨1 / 4, rfl, by rw [lit_zero]; norm_num, by rw [lit_one]; norm_num⟩, Or.inr rfl, 1, rfl, le_refl _, by simp [sampleIMFs]⟩
  exact ⟨out, out', h, h', fun j hj => C52_monotone sampleQuantile sampleIMFs_rect sampleIMFs_nz (by norm_num) (by norm_num)
    h h' hj⟩

/-- **C52.**  A value that is significant a posteriori is significant a priori: it lies above the band. -/
theorem C52_above (v P : ℝ) (hP : 0 < P) (N : ℕ) (a : ℝ)
    (h : significanceAposteriori (realFns ppf peaks) v (Real.log P) N a = .ok true) :
    significanceApriori (realFns ppf peaks) v (Real.log P) N a = .ok true ∧
      -Real.log P + width ppf a * (√(2 / N) * √P) < v := by
  obtain ⟨b, hb, hbi⟩ := significanceAposteriori_eq (ppf := ppf) (peaks := peaks) v P hP N a
  rw [h, Except.ok.injEq] at hb
  have h1 := hbi.1 hb.symm
  obtain ⟨b', hb', hbi'⟩ := significanceApriori_eq (ppf := ppf) (peaks := peaks) v P hP N a
  have : b' = true := hbi'.2 (lt_of_lt_of_le h1 (le_abs_self _))
  exact ⟨by rw [hb', this], by linarith⟩

/-- The value 3 with one sample per peak and 2 samples. -/
example : significanceAposteriori (realFns (fun p => p - 1 / 2) samplePeaks) 3 (Real.log 1) 2 (1 / 2) = .ok true := by
  obtain ⟨b, hb, hbi⟩ := significanceAposteriori_eq (ppf := fun p => p - 1 / 2) (peaks := samplePeaks) 3 1 one_pos 2 (1 / 2)
  rw [hb, hbi.2]
  have hw : width (fun p => p - 1 / 2) (1 / 2) = 1 / 4 := by
    unfold width
    norm_num [abs_of_neg]
  rw [hw]
  norm_num

/-- **C53, partial.**  The rescaling component is flagged exactly when it has more than four samples per peak.  Missing: the claim
says that it is never flagged, which holds up to four samples per peak only. -/
theorem C53_rescaling_partial (hq : NormalQuantile ppf) {imfs : List (List ℝ)} {N : ℕ} (hrect : Rectangular imfs N)
    (hnz : ∀ imf ∈ imfs, NonZero imf) {a : ℝ} {i : ℕ} {ref : List ℝ} (hi : imfs[i]? = some ref) {out : List (ℕ × ℤ)}
    (h : whitenoiseCheck (realFns ppf peaks) (.val imfs) "aposteriori" (.val (i + 1 : ℕ)) (.val a) = .ok (some out)) :
    out[i]? = some (i + 1, 1) ↔ 4 < period peaks ref := by
  classical
  obtain ⟨⟨_, ha, ha0, ha1⟩, _⟩ := (C51_flags _ _ _ _ _ _ h).2.1
  cases ha
  rw [lit_zero] at ha0
  rw [lit_one] at ha1
  obtain ⟨o, ho, _, hf⟩ := check_aposteriori (ppf := ppf) (peaks := peaks) hrect hnz ha0 ha1 hi
  rw [h, Except.ok.injEq, Option.some.injEq] at ho
  subst ho
  rw [hf i ref hi]
  have hP := period_pos (peaks := peaks) (NonZero.ne_nil (hnz ref (List.mem_of_getElem? hi)))
  have hk := width_pos hq ha0 ha1
  have hN : (0 : ℝ) < N := by exact_mod_cast hrect.1
  have hs : 0 < √(2 / (N : ℝ)) := Real.sqrt_pos.2 (by positivity)
  have hiff : width ppf a * (√(2 / N) * √(period peaks ref)) <
      scaledLog (upLimit ppf peaks N a ref) (i + 1 : ℕ) i N ref + Real.log (period peaks ref) ↔ 4 < period peaks ref := by
    have hsl : scaledLog (upLimit ppf peaks N a ref) (i + 1 : ℕ) i N ref = upLimit ppf peaks N a ref := by
      unfold scaledLog
      rw [if_neg]
      push_cast
      simp
    rw [hsl]
    unfold upLimit
    set P := period peaks ref
    set s := √(2 / (N : ℝ))
    set k := width ppf a
    have hsq : √P * √P = P := Real.mul_self_sqrt hP.le
    have hsp : 0 < √P := Real.sqrt_pos.2 hP
    have hks : 0 < k * s * √P := by positivity
    have e : -Real.log P + k * s * P / 2 + Real.log P = k * s * √P * (√P / 2) := by
      calc -Real.log P + k * s * P / 2 + Real.log P = k * s * P / 2 := by ring
        _ = k * s * (√P * √P) / 2 := by rw [hsq]
        _ = k * s * √P * (√P / 2) := by ring
    rw [e, show k * (s * √P) = k * s * √P * 1 by ring, mul_lt_mul_iff_right₀ hks]
    constructor
    · intro h
      have : 2 < √P := by linarith
      nlinarith
    · intro h
      by_contra hc
      have : √P ≤ 2 := by linarith
      nlinarith
  by_cases hc : 4 < period peaks ref
  · rw [if_pos (hiff.2 hc)]; simp [hc]
  · rw [if_neg (fun h => hc (hiff.1 h))]; simp [hc]

/-- **C53 is violated.**  With five samples per peak the rescaling component is flagged. -/
theorem C53_counterexample : ∃ out,
    whitenoiseCheck (realFns (fun p => p - 1 / 2) samplePeaks) (.val sampleIMFs) "aposteriori" (.val (1 : ℕ)) (.val (1 / 2)) =
      .ok (some out) ∧ out[0]? = some (1, 1) := by
  obtain ⟨out, h, _⟩ := C51_total_partial sampleIMFs_rect sampleIMFs_nz (sample_args "aposteriori" (Or.inr rfl))
  refine ⟨out, h, (C53_rescaling_partial sampleQuantile sampleIMFs_rect sampleIMFs_nz (i := 0) rfl h).2 ?_⟩
  simp [period, samplePeaks]
  norm_num

/-- With one peak in every four samples the rescaling component is not flagged. -/
example : ∃ out,
    whitenoiseCheck (realFns (fun p => p - 1 / 2) (fun l => l.length / 4)) (.val [[0, 1, 0, -1]]) "aposteriori" (.val (1 : ℕ))
      (.val (1 / 2)) = .ok (some out) ∧ ¬ out[0]? = some (1, 1) := by
  have hrect : Rectangular [[0, 1, 0, -1]] 4 := ⟨by norm_num, by simp, by simp⟩
  have hnz : ∀ imf ∈ [[(0 : ℝ), 1, 0, -1]], NonZero imf := by
    intro imf h
    simp only [List.mem_cons, List.not_mem_nil, or_false] at h
    subst h
    exact ⟨1, by simp, by norm_num⟩
  obtain ⟨out, h, _⟩ := C51_total_partial (ppf := fun p => p - 1 / 2) (peaks := fun l => l.length / 4) hrect hnz
    (test := "aposteriori") (rescaling := .val (1 : ℕ)) (alpha := .val (1 / 2))
    ⟨⟨1 / 2, rfl, by rw [lit_zero]; norm_num, by rw [lit_one]; norm_num⟩, Or.inr rfl, 1, rfl, le_refl _, by simp⟩
  refine ⟨out, h, fun hc => ?_⟩
  have := (C53_rescaling_partial sampleQuantile hrect hnz (i := 0) rfl h).1 hc
  simp [period] at this

/-! ### Amplitude -/

/-- All components multiplied by `c`. -/
def amplified (c : ℝ) (imfs : List (List ℝ)) : List (List ℝ) := imfs.map (fun imf => imf.map (c * ·))

/-- The number of non-negative peaks does not depend on the unit of the samples. -/
def UnitFree (peaks : List ℝ → ℕ) : Prop := ∀ c imf, 0 < c → peaks (imf.map (c * ·)) = peaks imf

theorem density_amplified (c : ℝ) (imf : List ℝ) (N : ℕ) : density (imf.map (c * ·)) N = c ^ 2 * density imf N := by
  unfold density
  rw [List.map_map, ← mul_div_assoc]
  congr 1
  induction imf with
  | nil => simp
  | cons x xs ih =>
    simp only [List.map_cons, List.sum_cons, Function.comp] at ih ⊢
    rw [ih]
    ring

theorem period_amplified (hu : UnitFree peaks) {c : ℝ} (hc : 0 < c) (imf : List ℝ) :
    period peaks (imf.map (c * ·)) = period peaks imf := by
  unfold period
  rw [hu c imf hc, List.length_map]

theorem amplified_rect {c : ℝ} {imfs : List (List ℝ)} {N : ℕ} (h : Rectangular imfs N) : Rectangular (amplified c imfs) N := by
  obtain ⟨h1, h2, h3⟩ := h
  refine ⟨h1, by simpa [amplified] using h2, ?_⟩
  intro imf him
  obtain ⟨x, hx, rfl⟩ := List.mem_map.1 him
  rw [List.length_map]
  exact h3 x hx

theorem amplified_nz {c : ℝ} (hc : 0 < c) {imfs : List (List ℝ)} (h : ∀ imf ∈ imfs, NonZero imf) :
    ∀ imf ∈ amplified c imfs, NonZero imf := by
  intro imf him
  obtain ⟨l, hl, rfl⟩ := List.mem_map.1 him
  obtain ⟨x, hx, hx0⟩ := h l hl
  exact ⟨c * x, List.mem_map.2 ⟨x, hx, rfl⟩, mul_ne_zero hc.ne' hx0⟩

theorem amplified_get {c : ℝ} {imfs : List (List ℝ)} {j : ℕ} {imf : List ℝ} (h : imfs[j]? = some imf) :
    (amplified c imfs)[j]? = some (imf.map (c * ·)) := by
  simp [amplified, h]

/-- **C65, partial.**  The verdict on the rescaling component does not depend on the amplitude.  Missing: the other components, see
`C65_counterexample`. -/
theorem C65_rescaling_partial (hq : NormalQuantile ppf) (hu : UnitFree peaks) {imfs : List (List ℝ)} {N : ℕ}
    (hrect : Rectangular imfs N) (hnz : ∀ imf ∈ imfs, NonZero imf) {a c : ℝ} (hc : 0 < c) {i : ℕ} (hi : i < imfs.length)
    {out out' : List (ℕ × ℤ)}
    (h : whitenoiseCheck (realFns ppf peaks) (.val imfs) "aposteriori" (.val (i + 1 : ℕ)) (.val a) = .ok (some out))
    (h' : whitenoiseCheck (realFns ppf peaks) (.val (amplified c imfs)) "aposteriori" (.val (i + 1 : ℕ)) (.val a) =
      .ok (some out')) : out[i]? = out'[i]? := by
  have him := List.getElem?_eq_getElem hi
  have e := C53_rescaling_partial hq hrect hnz him h
  have e' := C53_rescaling_partial hq (amplified_rect hrect) (amplified_nz hc hnz) (amplified_get him) h'
  rw [period_amplified hu hc] at e'
  have f := (C51_flags _ _ _ _ _ _ h).1.2 i hi
  have f' := (C51_flags _ _ _ _ _ _ h').1.2 i (by simpa [amplified] using hi)
  rcases f with f | f <;> rcases f' with f' | f' <;> rw [f, f']
  · rw [f] at e
    have := e.2 (e'.1 f')
    exact absurd this (by simp)
  · rw [f'] at e'
    have := e'.2 (e.1 f)
    exact absurd this (by simp)

/-- The hypotheses of `C65_rescaling_partial` and `C65_counterexample` hold for the samples. -/
example : UnitFree samplePeaks ∧ NormalQuantile (fun p => p - 1 / 2) ∧ Rectangular sampleIMFs 5 ∧
    (∀ imf ∈ sampleIMFs, NonZero imf) ∧ (0 : ℕ) ≠ 1 ∧ 1 < sampleIMFs.length :=
  ⟨fun c imf _ => by simp [samplePeaks], sampleQuantile, sampleIMFs_rect, sampleIMFs_nz, by norm_num, by simp [sampleIMFs]⟩

/-- **C65 is violated.**  The verdict on every component but the rescaling one can be turned both ways by the amplitude alone. -/
theorem C65_counterexample (hu : UnitFree peaks) {imfs : List (List ℝ)} {N : ℕ}
    (hrect : Rectangular imfs N) (hnz : ∀ imf ∈ imfs, NonZero imf) {a : ℝ} (ha : 0 < a) (ha' : a < 1) {i j : ℕ} (hij : i ≠ j)
    (hi : i < imfs.length) (hj : j < imfs.length) (v : Bool) :
    ∃ c, 0 < c ∧ ∃ out,
      whitenoiseCheck (realFns ppf peaks) (.val (amplified c imfs)) "aposteriori" (.val (i + 1 : ℕ)) (.val a) =
        .ok (some out) ∧ out[j]? = some (j + 1, if v then 1 else 0) := by
  classical
  have him := List.getElem?_eq_getElem hi
  have hjm := List.getElem?_eq_getElem hj
  set ref := imfs[i]
  set imf := imfs[j]
  set w := width ppf a * (√(2 / (N : ℝ)) * √(period peaks imf)) with hw
  set u := upLimit ppf peaks N a ref with hudef
  set t := w + u - Real.log (period peaks imf) - Real.log (density imf N) + (if v then 1 else 0) with ht
  have hc : 0 < Real.exp (t / 2) := Real.exp_pos _
  refine ⟨Real.exp (t / 2), hc, ?_⟩
  obtain ⟨out, ho, _, hf⟩ := check_aposteriori (ppf := ppf) (peaks := peaks) (amplified_rect hrect) (amplified_nz hc hnz)
    ha ha' (amplified_get (c := Real.exp (t / 2)) him)
  refine ⟨out, ho, ?_⟩
  rw [hf j _ (amplified_get hjm)]
  have hE := density_pos hrect.1 (hnz imf (List.mem_of_getElem? hjm))
  have hup : upLimit ppf peaks N a (ref.map (Real.exp (t / 2) * ·)) = u := by
    rw [hudef]
    unfold upLimit
    rw [period_amplified hu hc]
  have hsl : scaledLog u (i + 1 : ℕ) j N (imf.map (Real.exp (t / 2) * ·)) = t + Real.log (density imf N) - u := by
    unfold scaledLog
    rw [if_pos (by push_cast; omega), density_amplified, Real.log_mul (by positivity) hE.ne', Real.log_pow, Real.log_exp]
    push_cast
    ring
  rw [hup, hsl, period_amplified hu hc, ← hw]
  congr 2
  cases v
  · have hh : ¬ w < t + Real.log (density imf N) - u + Real.log (period peaks imf) := by
      simp only [Bool.false_eq_true, if_false, add_zero] at ht
      rw [ht]
      intro h
      linarith
    rw [if_neg hh]
    rfl
  · have hh : w < t + Real.log (density imf N) - u + Real.log (period peaks imf) := by
      simp only [if_true] at ht
      rw [ht]
      linarith
    rw [if_pos hh]
    rfl

end Real
end Checks
end PyEMD
