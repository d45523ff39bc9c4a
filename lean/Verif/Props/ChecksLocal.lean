import Verif.Props.ChecksPeaks

/-!
# C146: what the verdict of the white-noise test on a component depends on
-/

set_option linter.unusedSectionVars false

namespace PyEMD
namespace Checks

open Spec

section LawFree

variable {α : Type} [Add α] [Sub α] [Mul α] [Div α] [Neg α] [LT α] [LE α] [BEq α]
  [DecidableLT α] [DecidableLE α] [NpScalar α]

/-- The flags that a successful check returned, computed from the components one by one. -/
theorem check_flags (M : MathFns α) {test : String} {r : Int} {a : α} {imfs : List (List α)} {out : List (Nat × Int)}
    (h : whitenoiseCheck M (.val imfs) test (.val r) (.val a) = .ok (some out)) {j : Nat} {imf : List α}
    (hj : imfs[j]? = some imf) :
    (test = "apriori" ∧ ∃ f, aprioriFlag M (imfs.headD []).length a imf = .ok f ∧ out[j]? = some (j + 1, f)) ∨
    (test = "aposteriori" ∧ ∃ ref s f, imfs[(r - 1).toNat]? = some ref ∧ scalingFactor M (imfs.headD []).length a ref = .ok s ∧
      aposterioriFlag M (imfs.headD []).length a s r j imf = .ok f ∧ out[j]? = some (j + 1, f)) := by
  obtain ⟨_, ⟨⟨_, ha, ha0, ha1⟩, ht, _, hr, hr1, hr2⟩, hne, hnan⟩ := C51_flags _ _ _ _ _ _ h
  cases ha
  cases hr
  have hne' : (imfs.headD []).length ≠ 0 := by
    intro hh
    simp only [whitenoiseCheck, hh, or_true, if_true] at h
    exact absurd h (by simp)
  rw [check_valid M hne hne' ha0 ha1 ht hr1 hr2 hnan] at h
  have key : ∀ flag : Nat → List α → PyM Int, (collect flag 0 imfs).map some = .ok (some out) →
      ∃ f, flag j imf = .ok f ∧ out[j]? = some (j + 1, f) := by
    intro flag hc
    cases hcc : collect flag 0 imfs with
    | error e => rw [hcc] at hc; exact absurd hc (by simp [Except.map])
    | ok o =>
      rw [hcc] at hc
      simp only [Except.map, Except.ok.injEq, Option.some.injEq] at hc
      subst hc
      obtain ⟨f, hf, ho⟩ := (collect_spec flag imfs 0 o hcc).2 j imf hj
      rw [Nat.zero_add] at hf ho
      exact ⟨f, hf, ho⟩
  split at h
  · rename_i htest
    exact Or.inl ⟨htest, key _ h⟩
  · rename_i htest
    have htest : test = "aposteriori" := ht.resolve_left htest
    cases hg : pyGet imfs (r - 1) with
    | error e => rw [hg] at h; exact absurd h (by simp [Except.bind])
    | ok ref =>
      rw [hg] at h
      simp only [Except.bind] at h
      cases hs : scalingFactor M (imfs.headD []).length a ref with
      | error e => rw [hs] at h; exact absurd h (by simp)
      | ok s =>
        rw [hs] at h
        obtain ⟨f, hf, ho⟩ := key _ h
        refine Or.inr ⟨htest, ref, s, f, ?_, hs, hf, ho⟩
        have hidx : pyIdx imfs.length (r - 1) = some (r - 1).toNat := by
          unfold pyIdx
          rw [if_pos (by omega), if_pos (by omega)]
        simp only [pyGet, hidx] at hg
        cases hx : imfs[(r - 1).toNat]? with
        | none => rw [hx] at hg; exact absurd hg (by simp)
        | some z =>
          rw [hx] at hg
          simp only [Except.ok.injEq] at hg
          rw [hg]

/-- The rows of an array have equal lengths. -/
theorem headD_len {imfs : List (List α)} {j n : Nat} {imf : List α} (hj : imfs[j]? = some imf)
    (hr : ∀ x ∈ imfs, x.length = n) : (imfs.headD []).length = n := by
  cases imfs with
  | nil => simp at hj
  | cons x xs => exact hr x (by simp)

/-- **C146**: the verdict of the a-priori test on a component is a matter of that component alone.  Whenever the component occurs in
two sets of components, at whatever place and among whatever others, it gets the same flag at the same confidence level.  No
property of the arithmetic is used. -/
theorem C146_apriori (M : MathFns α) {r r' : Int} {a : α} {imfs imfs' : List (List α)} {out out' : List (Nat × Int)}
    (h : whitenoiseCheck M (.val imfs) "apriori" (.val r) (.val a) = .ok (some out))
    (h' : whitenoiseCheck M (.val imfs') "apriori" (.val r') (.val a) = .ok (some out'))
    {j k : Nat} {imf : List α} (hj : imfs[j]? = some imf) (hk : imfs'[k]? = some imf)
    (hrect : ∀ x ∈ imfs, x.length = imf.length) (hrect' : ∀ x ∈ imfs', x.length = imf.length) :
    ∃ f, out[j]? = some (j + 1, f) ∧ out'[k]? = some (k + 1, f) := by
  rcases check_flags M h hj with ⟨_, f, hf, ho⟩ | ⟨ht, _⟩
  swap
  · exact absurd ht (by decide)
  rcases check_flags M h' hk with ⟨_, f', hf', ho'⟩ | ⟨ht, _⟩
  swap
  · exact absurd ht (by decide)
  rw [headD_len hj hrect] at hf
  rw [headD_len hk hrect', hf, Except.ok.injEq] at hf'
  subst hf'
  exact ⟨f, ho, ho'⟩

/-- **C146**: the verdict of the a-posteriori test on a component is a matter of that component and of the rescaling component.  The
other components may be replaced, reordered, removed or added. -/
theorem C146_aposteriori (M : MathFns α) {i i' : Nat} {a : α} {imfs imfs' : List (List α)} {out out' : List (Nat × Int)}
    (h : whitenoiseCheck M (.val imfs) "aposteriori" (.val (i + 1 : Nat)) (.val a) = .ok (some out))
    (h' : whitenoiseCheck M (.val imfs') "aposteriori" (.val (i' + 1 : Nat)) (.val a) = .ok (some out'))
    (href : imfs[i]? = imfs'[i']?)
    {j k : Nat} {imf : List α} (hj : imfs[j]? = some imf) (hk : imfs'[k]? = some imf) (hjk : j = i ↔ k = i')
    (hrect : ∀ x ∈ imfs, x.length = imf.length) (hrect' : ∀ x ∈ imfs', x.length = imf.length) :
    ∃ f, out[j]? = some (j + 1, f) ∧ out'[k]? = some (k + 1, f) := by
  rcases check_flags M h hj with ⟨ht, _⟩ | ⟨_, ref, s, f, hr, hs, hf, ho⟩
  · exact absurd ht (by decide)
  rcases check_flags M h' hk with ⟨ht, _⟩ | ⟨_, ref', s', f', hr', hs', hf', ho'⟩
  · exact absurd ht (by decide)
  rw [show (((i + 1 : Nat) : Int) - 1).toNat = i by omega] at hr
  rw [show (((i' + 1 : Nat) : Int) - 1).toNat = i' by omega] at hr'
  rw [href, hr', Option.some.injEq] at hr
  subst hr
  rw [headD_len hj hrect] at hs hf
  rw [headD_len hk hrect'] at hs' hf'
  rw [hs, Except.ok.injEq] at hs'
  subst hs'
  have e : aposterioriFlag M imf.length a s ((i' + 1 : Nat) : Int) k imf =
      aposterioriFlag M imf.length a s ((i + 1 : Nat) : Int) j imf := by
    have hiff : ((k : Int) ≠ ((i' + 1 : Nat) : Int) - 1) ↔ ((j : Int) ≠ ((i + 1 : Nat) : Int) - 1) := by omega
    simp only [aposterioriFlag, hiff]
  rw [e, hf, Except.ok.injEq] at hf'
  subst hf'
  exact ⟨f, ho, ho'⟩

end LawFree

/-- The same component in first place among two and in second place among three: flag 1 both times.  With another rescaling
component the a-posteriori verdict may change. -/
example : okWith (· == some [(1, 1), (2, 0)])
      (whitenoiseCheck stubFns (.val [[5, -7, 3], [1, -1, 1]]) "apriori" (.val 1) (.val (99 / 100))) = true ∧
    okWith (· == some [(1, 0), (2, 1), (3, 0)])
      (whitenoiseCheck stubFns (.val [[1, 0, 1], [5, -7, 3], [1, -1, 1]]) "apriori" (.val 3) (.val (99 / 100))) = true ∧
    okWith (fun o => o.isSome)
      (whitenoiseCheck stubFns (.val [[5, -7, 3], [1, -1, 1]]) "aposteriori" (.val 2) (.val (99 / 100))) = true := by
  decide +kernel

section Exact

variable {K : Type} [Field K] [LinearOrder K] [IsStrictOrderedRing K] [FloorRing K]

attribute [local instance] exactScalar

theorem energy_reverse (imf : List K) : energy imf.reverse = energy imf := by
  unfold energy
  rw [lit_zero, ← List.sum_eq_foldl, ← List.sum_eq_foldl, List.map_reverse, List.sum_reverse]

theorem collect_map (flag : Nat → List K → PyM Int) (g : List K → List K) (hg : ∀ i imf, flag i (g imf) = flag i imf) :
    ∀ (imfs : List (List K)) (i : Nat), collect flag i (imfs.map g) = collect flag i imfs
  | [], i => rfl
  | imf :: imfs, i => by
    simp only [List.map_cons, collect, hg, collect_map flag g hg imfs (i + 1)]

theorem pyGet_map {β γ : Type} (g : β → γ) (l : List β) (i : Int) : pyGet (l.map g) i = (pyGet l i).map g := by
  unfold pyGet
  rw [List.length_map]
  cases pyIdx l.length i with
  | none => rfl
  | some k =>
    simp only [List.getElem?_map]
    cases l[k]? <;> rfl

/-- **C146**: reversing the direction of time in all components changes nothing, neither the flags nor the exceptions, in exact
arithmetic and with the peaks counted by `find_peaks`. -/
theorem C146_reversed (M : MathFns K) (hM : M.peaks = peakCount) (imfs : List (List K)) (test : String) (r : Arg Int)
    (a : Arg K) :
    whitenoiseCheck M (.val (imfs.map List.reverse)) test r a = whitenoiseCheck M (.val imfs) test r a := by
  have hper : ∀ imf : List K, meanPeriod M imf.reverse = meanPeriod M imf := by
    intro imf
    simp only [meanPeriod, hM, C145_reversed, List.length_reverse]
  have hhead : ((imfs.map List.reverse).headD []).length = (imfs.headD []).length := by
    cases imfs <;> simp
  have hnan : (imfs.map List.reverse).any (fun imf => imf.any M.isnan) = imfs.any (fun imf => imf.any M.isnan) := by
    rw [List.any_map]
    congr 1
    funext imf
    simp [List.any_reverse]
  have h1 : ∀ (N : Nat) (al : K) (imf : List K), aprioriFlag M N al imf.reverse = aprioriFlag M N al imf := by
    intro N al imf
    simp only [aprioriFlag, hper, energy_reverse]
  have h2 : ∀ (N : Nat) (al : K) (imf : List K), scalingFactor M N al imf.reverse = scalingFactor M N al imf := by
    intro N al imf
    simp only [scalingFactor, hper, energy_reverse]
  have h3 : ∀ (N : Nat) (al s : K) (r : Int) (i : Nat) (imf : List K),
      aposterioriFlag M N al s r i imf.reverse = aposterioriFlag M N al s r i imf := by
    intro N al s r i imf
    simp only [aposterioriFlag, hper, energy_reverse]
  have h4 : ∀ (N : Nat) (al : K) (i : Int) (F : K → PyM (Option (List (Nat × Int)))),
      ((pyGet (imfs.map List.reverse) i).bind fun ref => (scalingFactor M N al ref).bind F) =
      ((pyGet imfs i).bind fun ref => (scalingFactor M N al ref).bind F) := by
    intro N al i F
    rw [pyGet_map]
    cases pyGet imfs i with
    | error e => rfl
    | ok ref =>
      show (scalingFactor M N al ref.reverse).bind F = _
      rw [h2]
      rfl
  simp only [whitenoiseCheck, List.length_map, hhead, hnan, collect_map _ _ (fun _ imf => h1 _ _ imf),
    collect_map _ _ (fun i imf => h3 _ _ _ _ i imf)]
  cases a with
  | wrongType => rfl
  | val a =>
    cases r with
    | wrongType => rfl
    | val r =>
      have := h4 (imfs.headD []).length a (r - 1) (fun s =>
        (collect (aposterioriFlag M (imfs.headD []).length a s r) 0 imfs).bind fun output => pure (some output))
      simp only [Bind.bind] at this ⊢
      rw [this]

end Exact

/-- External functions as in `stubFns` with the peaks counted by `find_peaks`. -/
def stubPeaks : MathFns ℚ := ⟨stubFns.log, stubFns.exp, stubFns.sqrt, stubFns.ppf, peakCount, stubFns.isnan⟩

/-- Two components read in both directions. -/
example : stubPeaks.peaks = peakCount ∧ okWith (· == some [(1, 1), (2, 0)])
      (whitenoiseCheck stubPeaks (.val [[5, -7, 3, -1], [1, 0, 1, 0]]) "apriori" (.val 1) (.val (99 / 100))) = true ∧
    okWith (· == some [(1, 1), (2, 0)])
      (whitenoiseCheck stubPeaks (.val [[-1, 3, -7, 5], [0, 1, 0, 1]]) "apriori" (.val 1) (.val (99 / 100))) = true :=
  ⟨rfl, by decide +kernel, by decide +kernel⟩

/-- **C146 in full is violated** for the sign: the component −1, 1, −1, 1, −1 is not flagged, the component 1, −1, 1, −1, 1 is,
because tops are counted and bottoms are not. -/
theorem C146_counterexample : ∃ imf : List ℝ, ∃ out out',
    whitenoiseCheck (realFns (fun p => p - 1 / 2) peakCount) (.val [imf]) "aposteriori" (.val 1) (.val (1 / 2)) =
      .ok (some out) ∧
    whitenoiseCheck (realFns (fun p => p - 1 / 2) peakCount) (.val [imf.map (- ·)]) "aposteriori" (.val 1) (.val (1 / 2)) =
      .ok (some out') ∧ out = [(1, 0)] ∧ out' = [(1, 1)] := by
  obtain ⟨out, h, hf, hf'⟩ := C51_total_partial sampleUp_rect.1 sampleUp_nz.1 (sampleUp_args (fun p => p - 1 / 2))
  obtain ⟨out', h', hg, hg'⟩ := C51_total_partial sampleUp_rect.2 sampleUp_nz.2 (sampleUp_args (fun p => p - 1 / 2))
  have e1 : ¬ out[0]? = some (1, 1) := by
    rw [C145_rescaling sampleQuantile sampleUp_rect.1 sampleUp_nz.1 (i := 0) rfl h, sampleUp_count]
    norm_num
  have e2 : out'[0]? = some (1, 1) := by
    rw [C145_rescaling sampleQuantile sampleUp_rect.2 sampleUp_nz.2 (i := 0) rfl h', sampleDown_count]
    norm_num
  refine ⟨sampleUp, out, out', h, h', ?_, ?_⟩
  · obtain ⟨x, rfl⟩ := List.length_eq_one_iff.1 hf
    rcases hf' 0 (by simp) with h0 | h0
    · simpa using h0
    · exact absurd h0 e1
  · obtain ⟨x, rfl⟩ := List.length_eq_one_iff.1 hg
    simpa using e2

end Checks
end PyEMD
