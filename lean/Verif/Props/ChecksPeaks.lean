import Mathlib.Data.Set.Card
import Verif.Model.FindPeaks
import Verif.Spec.Peaks
import Verif.Props.Checks

/-!
# C145: the peaks counted by the white-noise test

`mean_period` divides the length by the number of peaks that `find_peaks(data, height=0)` finds.
-/

set_option linter.unusedSectionVars false

namespace PyEMD
namespace Checks

open Spec

variable {K : Type} [Field K] [LinearOrder K] [IsStrictOrderedRing K] [FloorRing K]

attribute [local instance] exactScalar

theorem ahead_spec (x : List K) (v : K) (iMax : Nat) (hm : iMax < x.length) :
    ∀ (fuel i : Nat), iMax ≤ fuel + i → i ≤ iMax →
      i ≤ ahead x v iMax fuel i ∧ ahead x v iMax fuel i ≤ iMax ∧
      (∀ k, i ≤ k → k < ahead x v iMax fuel i → x[k]? = some v) ∧
      (ahead x v iMax fuel i < iMax → x[ahead x v iMax fuel i]? ≠ some v) := by
  intro fuel
  induction fuel with
  | zero =>
    intro i hf hi
    simp only [ahead]
    exact ⟨le_refl _, hi, fun k h1 h2 => absurd h2 (by omega), fun h => absurd h (by omega)⟩
  | succ fuel ih =>
    intro i hf hi
    have hx := List.getElem?_eq_getElem (show i < x.length by omega)
    simp only [ahead, hx]
    split
    · rename_i h
      have hv : x[i] = v := by simpa using h.2
      obtain ⟨h1, h2, h3, h4⟩ := ih (i + 1) (by omega) (by omega)
      refine ⟨by omega, h2, ?_, h4⟩
      intro k hk hk'
      rcases Nat.eq_or_lt_of_le hk with rfl | hk
      · rw [hx, hv]
      · exact h3 k hk hk'
    · rename_i h
      refine ⟨le_refl _, hi, fun k h1 h2 => absurd h2 (by omega), ?_⟩
      intro hlt he
      rw [hx, Option.some.injEq] at he
      exact h ⟨hlt, by simpa using he⟩

theorem Top.lt {x : List K} {l r : Nat} {v : K} (h : Top x l r v) : r + 1 < x.length := by
  obtain ⟨q, hq, _⟩ := h.after
  exact (List.getElem?_eq_some_iff.1 hq).1

theorem localMaxima_mem (x : List K) (iMax : Nat) (hm : iMax + 1 = x.length) :
    ∀ (fuel i : Nat), iMax ≤ fuel + i → 1 ≤ i →
      (∀ l r, (l, r) ∈ localMaxima x iMax fuel i ↔ i ≤ l ∧ ∃ v, Top x l r v) ∧
      (localMaxima x iMax fuel i).Pairwise (fun a b => a.2 < b.1) := by
  intro fuel
  induction fuel with
  | zero =>
    intro i hf hi
    simp only [localMaxima, List.not_mem_nil, false_iff, not_and, not_exists, List.Pairwise.nil, and_true]
    intro l r hl v ht
    have := Top.lt ht
    have := ht.le
    omega
  | succ fuel ih =>
    intro i hf hi
    simp only [localMaxima]
    by_cases hlt : i < iMax
    swap
    · rw [if_neg hlt]
      simp only [List.not_mem_nil, false_iff, not_and, not_exists, List.Pairwise.nil, and_true]
      intro l r hl v ht
      have := Top.lt ht
      have := ht.le
      omega
    rw [if_pos hlt]
    have hp := List.getElem?_eq_getElem (show i - 1 < x.length by omega)
    have hx := List.getElem?_eq_getElem (show i < x.length by omega)
    have hnext := ih (i + 1) (by omega) (by omega)
    -- no top starts at `i`
    have skip : (∀ r v, ¬ Top x i r v) →
        (∀ l r, (l, r) ∈ localMaxima x iMax fuel (i + 1) ↔ i ≤ l ∧ ∃ v, Top x l r v) := by
      intro hno l r
      rw [hnext.1 l r]
      constructor
      · rintro ⟨h, ht⟩
        exact ⟨by omega, ht⟩
      · rintro ⟨h, v, ht⟩
        refine ⟨?_, v, ht⟩
        rcases Nat.eq_or_lt_of_le h with rfl | h
        · exact absurd ht (hno r v)
        · exact h
    generalize hpp : x[i - 1] = p at hp
    generalize hvv : x[i] = v at hx
    rw [hp, hx]
    dsimp only
    by_cases hpv : p < v
    swap
    · rw [if_neg hpv]
      refine ⟨skip ?_, hnext.2⟩
      intro r w ht
      obtain ⟨p', hp', hlt'⟩ := ht.before
      rw [hp, Option.some.injEq] at hp'
      have := ht.flat i (le_refl _) ht.le
      rw [hx, Option.some.injEq] at this
      subst hp' this
      exact hpv hlt'
    rw [if_pos hpv]
    obtain ⟨a1, a2, a3, a4⟩ := ahead_spec x v iMax (by omega) x.length (i + 1) (by omega) (by omega)
    generalize ahead x v iMax x.length (i + 1) = a at a1 a2 a3 a4
    have hfl : ∀ k, i ≤ k → k < a → x[k]? = some v := by
      intro k h1 h2
      rcases Nat.eq_or_lt_of_le h1 with rfl | h1
      · exact hx
      · exact a3 k h1 h2
    have ha := List.getElem?_eq_getElem (show a < x.length by omega)
    generalize x[a] = w at ha
    rw [ha]
    dsimp only
    by_cases hwv : w < v
    · rw [if_pos hwv]
      have htop : Top x i (a - 1) v :=
        { left := hi
          le := by omega
          flat := fun k h1 h2 => hfl k h1 (by omega)
          before := ⟨p, hp, hpv⟩
          after := ⟨w, by rw [show a - 1 + 1 = a by omega]; exact ha, hwv⟩ }
      obtain ⟨hm', hs⟩ := ih (a + 1) (by omega) (by omega)
      refine ⟨?_, ?_⟩
      · intro l r
        rw [List.mem_cons, hm' l r, Prod.mk.injEq]
        constructor
        · rintro (⟨rfl, rfl⟩ | ⟨h, ht⟩)
          · exact ⟨le_refl _, v, htop⟩
          · exact ⟨by omega, ht⟩
        · rintro ⟨h, u, ht⟩
          rcases Nat.eq_or_lt_of_le h with rfl | h
          · left
            refine ⟨rfl, ?_⟩
            have hu := ht.flat i (le_refl _) ht.le
            rw [hx, Option.some.injEq] at hu
            subst hu
            have h1 : a ≤ r + 1 := by
              by_contra hc
              obtain ⟨q, hq, hqv⟩ := ht.after
              rw [hfl (r + 1) (by have := ht.le; omega) (by omega), Option.some.injEq] at hq
              exact absurd hqv (by rw [hq]; exact lt_irrefl _)
            have h2 : r < a := by
              by_contra hc
              have := ht.flat a (by omega) (by omega)
              rw [ha, Option.some.injEq] at this
              exact absurd hwv (by rw [this]; exact lt_irrefl _)
            omega
          · right
            refine ⟨?_, u, ht⟩
            by_contra hc
            obtain ⟨q, hq, hqu⟩ := ht.before
            have hq' := hfl (l - 1) (by omega) (by omega)
            have hl := ht.flat l (le_refl _) ht.le
            rcases Nat.eq_or_lt_of_le (show l ≤ a by omega) with rfl | hla
            · rw [ha, Option.some.injEq] at hl
              rw [hq', Option.some.injEq] at hq
              subst hl hq
              exact absurd hwv (lt_asymm hqu)
            · rw [hfl l (by omega) hla, Option.some.injEq] at hl
              rw [hq', Option.some.injEq] at hq
              subst hl hq
              exact lt_irrefl _ hqu
      · rw [List.pairwise_cons]
        refine ⟨?_, hs⟩
        rintro ⟨l, r⟩ hmem
        have := ((hm' l r).1 hmem).1
        show a - 1 < l
        omega
    · rw [if_neg hwv]
      refine ⟨skip ?_, hnext.2⟩
      intro r u ht
      have hu := ht.flat i (le_refl _) ht.le
      rw [hx, Option.some.injEq] at hu
      subst hu
      obtain ⟨q, hq, hqv⟩ := ht.after
      have hr := Top.lt ht
      have hle := ht.le
      rcases Nat.lt_trichotomy (r + 1) a with h | h | h
      · rw [hfl (r + 1) (by omega) h, Option.some.injEq] at hq
        exact absurd hqv (by rw [hq]; exact lt_irrefl _)
      · rw [h, ha, Option.some.injEq] at hq
        rw [hq] at hwv
        exact hwv hqv
      · exact a4 (by omega) (ht.flat a (by omega) (by omega))

/-- The value of a top is determined by its place. -/
theorem Top.value {x : List K} {l r : Nat} {v w : K} (h : Top x l r v) (h' : Top x l r w) : v = w := by
  have h1 := h.flat l (le_refl _) h.le
  rw [h'.flat l (le_refl _) h.le, Option.some.injEq] at h1
  exact h1.symm

/-- The plateaus reported for a whole array. -/
theorem edges_mem (x : List K) :
    (∀ l r, (l, r) ∈ localMaxima x (x.length - 1) x.length 1 ↔ ∃ v, Top x l r v) ∧
      (localMaxima x (x.length - 1) x.length 1).Pairwise (fun a b => a.2 < b.1) := by
  by_cases h0 : x.length = 0
  · have : x = [] := List.length_eq_zero_iff.1 h0
    subst this
    refine ⟨?_, by simp [localMaxima]⟩
    intro l r
    simp only [List.length_nil, localMaxima, List.not_mem_nil, false_iff, not_exists]
    intro v ht
    exact absurd (Top.lt ht) (by simp)
  · obtain ⟨h1, h2⟩ := localMaxima_mem x (x.length - 1) (by omega) x.length 1 (by omega) (le_refl _)
    refine ⟨fun l r => ?_, h2⟩
    rw [h1 l r]
    constructor
    · rintro ⟨_, h⟩
      exact h
    · rintro ⟨v, h⟩
      exact ⟨h.left, v, h⟩

/-- **C145**: the peaks of a component, as the white-noise test counts them, are the middles of exactly those plateaus (a single
sample is a plateau too) that are strictly higher than the sample before and the sample after, both of which exist, and that
are not negative; they are listed from left to right, each once. -/
theorem C145_peaks (x : List K) :
    (∀ m, m ∈ findPeaks x ↔ ∃ l r v, Top x l r v ∧ 0 ≤ v ∧ m = (l + r) / 2) ∧ (findPeaks x).Pairwise (· < ·) := by
  obtain ⟨hm, hs⟩ := edges_mem x
  have hmid : ∀ l r v, Top x l r v → x[(l + r) / 2]? = some v := by
    intro l r v ht
    have := ht.le
    exact ht.flat _ (by omega) (by omega)
  constructor
  · intro m
    simp only [findPeaks, List.mem_filter, List.mem_map, Prod.exists]
    constructor
    · rintro ⟨⟨l, r, hmem, rfl⟩, hv⟩
      obtain ⟨v, ht⟩ := (hm l r).1 hmem
      rw [hmid l r v ht] at hv
      exact ⟨l, r, v, ht, by simpa [lit_zero] using hv, rfl⟩
    · rintro ⟨l, r, v, ht, hv, rfl⟩
      refine ⟨⟨l, r, (hm l r).2 ⟨v, ht⟩, rfl⟩, ?_⟩
      rw [hmid l r v ht]
      simpa [lit_zero] using hv
  · refine List.Pairwise.filter _ ?_
    rw [List.pairwise_map]
    refine List.Pairwise.imp_of_mem ?_ hs
    rintro ⟨l, r⟩ ⟨l', r'⟩ h1 h2 h
    obtain ⟨v, ht⟩ := (hm l r).1 h1
    obtain ⟨v', ht'⟩ := (hm l' r').1 h2
    have := ht.le
    have := ht'.le
    show (l + r) / 2 < (l' + r') / 2
    have h : r < l' := h
    omega

/-- A plateau in the middle counts once, the falling start, the rising end and the negative top do not count. -/
example : findPeaks ([3, 1, 2, 2, 2, 0, -2, -1, -3, 0, 1] : List ℚ) = [3] ∧
    findPeaks ([0, 1, 0, 1, 0] : List ℚ) = [1, 3] ∧ findPeaks ([1, 2, 2] : List ℚ) = [] := by decide +kernel

/-- Samples 2 to 4 are such a plateau. -/
example : Top ([3, 1, 2, 2, 2, 0, -2, -1, -3, 0, 1] : List ℚ) 2 4 2 where
  left := by norm_num
  le := by norm_num
  flat := by
    intro k h1 h2
    obtain rfl | rfl | rfl : k = 2 ∨ k = 3 ∨ k = 4 := by omega
    all_goals rfl
  before := ⟨1, rfl, by norm_num⟩
  after := ⟨0, rfl, by norm_num⟩

/-- The list of plateaus that count. -/
def counted (x : List K) : List (Nat × Nat) :=
  (localMaxima x (x.length - 1) x.length 1).filter
    (fun e => match x[(e.1 + e.2) / 2]? with | some v => decide (lit 0 ≤ v) | none => false)

theorem counted_length (x : List K) : (counted x).length = peakCount x := by
  unfold counted peakCount findPeaks
  rw [List.filter_map, List.length_map]
  rfl

theorem counted_mem (x : List K) (l r : Nat) : (l, r) ∈ counted x ↔ ∃ v, Top x l r v ∧ 0 ≤ v := by
  unfold counted
  rw [List.mem_filter, (edges_mem x).1 l r]
  have hmid : ∀ v, Top x l r v → x[(l + r) / 2]? = some v := by
    intro v ht
    have := ht.le
    exact ht.flat _ (by omega) (by omega)
  constructor
  · rintro ⟨⟨v, ht⟩, hv⟩
    rw [hmid v ht] at hv
    exact ⟨v, ht, by simpa [lit_zero] using hv⟩
  · rintro ⟨v, ht, hv⟩
    refine ⟨⟨v, ht⟩, ?_⟩
    rw [hmid v ht]
    simpa [lit_zero] using hv

theorem counted_sorted (x : List K) : (counted x).Pairwise (fun a b => a.2 + 1 < b.1) := by
  refine List.Pairwise.imp_of_mem ?_ (List.Pairwise.filter _ (edges_mem x).2)
  rintro ⟨l, r⟩ ⟨l', r'⟩ h1 h2 h
  obtain ⟨v, ht, _⟩ := (counted_mem x l r).1 h1
  obtain ⟨v', ht', _⟩ := (counted_mem x l' r').1 h2
  have h : r < l' := h
  show r + 1 < l'
  rcases Nat.eq_or_lt_of_le (show r + 1 ≤ l' from h) with rfl | h
  · exfalso
    obtain ⟨q, hq, hqv⟩ := ht.after
    obtain ⟨p, hp, hpv⟩ := ht'.before
    rw [ht'.flat _ (le_refl _) ht'.le, Option.some.injEq] at hq
    rw [Nat.add_sub_cancel, ht.flat r ht.le (le_refl _), Option.some.injEq] at hp
    subst hq hp
    exact lt_asymm hqv hpv
  · exact h

theorem counted_nodup (x : List K) : (counted x).Nodup := by
  refine List.Pairwise.imp_of_mem ?_ (counted_sorted x)
  rintro ⟨l, r⟩ ⟨l', r'⟩ h1 h2 h he
  rw [Prod.mk.injEq] at he
  obtain ⟨v, ht, _⟩ := (counted_mem x l r).1 h1
  have := ht.le
  have h : r + 1 < l' := h
  omega

/-- **C145**: the number of peaks is the number of such plateaus. -/
theorem C145_count (x : List K) : peakCount x = {e : Nat × Nat | ∃ v, Top x e.1 e.2 v ∧ 0 ≤ v}.ncard := by
  have : {e : Nat × Nat | ∃ v, Top x e.1 e.2 v ∧ 0 ≤ v} = ((counted x).toFinset : Set (Nat × Nat)) := by
    ext ⟨l, r⟩
    rw [Set.mem_ofPred_eq, List.coe_toFinset, Set.mem_ofPred_eq, counted_mem]
  rw [this, Set.ncard_coe_finset, List.toFinset_card_of_nodup (counted_nodup x), counted_length]

theorem gap_bound : ∀ (es : List (Nat × Nat)) (lo hi : Nat), es.Pairwise (fun a b => a.2 + 1 < b.1) →
    (∀ e ∈ es, lo ≤ e.1 ∧ e.1 ≤ e.2 ∧ e.2 ≤ hi) → 2 * es.length ≤ hi + 2 - lo
  | [], lo, hi, _, _ => by simp
  | e :: es, lo, hi, hp, hb => by
    rw [List.pairwise_cons] at hp
    obtain ⟨h1, h2, h3⟩ := hb e (by simp)
    have := gap_bound es (e.2 + 2) hi hp.2 (fun e' he' => by
      obtain ⟨_, h5, h6⟩ := hb e' (by simp [he'])
      have := hp.1 e' he'
      exact ⟨by omega, h5, h6⟩)
    rw [List.length_cons]
    omega

/-- **C145**: there are fewer than half as many peaks as samples. -/
theorem C145_half (x : List K) (hx : x ≠ []) : 2 * peakCount x + 1 ≤ x.length := by
  rw [← counted_length]
  have hpos := List.length_pos_iff.2 hx
  by_cases h0 : counted x = []
  · rw [h0, List.length_nil]
    omega
  obtain ⟨⟨l, r⟩, he⟩ := List.exists_mem_of_ne_nil _ h0
  obtain ⟨v, ht, _⟩ := (counted_mem x l r).1 he
  have h1 := Top.lt ht
  have h2 := ht.left
  have h3 := ht.le
  have := gap_bound (counted x) 1 (x.length - 2) (counted_sorted x) (by
    rintro ⟨l, r⟩ he
    obtain ⟨v, ht, _⟩ := (counted_mem x l r).1 he
    have h1 := Top.lt ht
    have h2 := ht.left
    have h3 := ht.le
    exact ⟨h2, h3, by show r ≤ _; omega⟩)
  omega

/-- The bound is attained. -/
example : 2 * peakCount ([0, 1, 0, 1, 0, 2, 1] : List ℚ) + 1 = 7 := by decide +kernel

theorem Top.scale {x : List K} {l r : Nat} {v c : K} (hc : 0 < c) (h : Top x l r v) : Top (x.map (c * ·)) l r (c * v) where
  left := h.left
  le := h.le
  flat := fun k h1 h2 => by rw [List.getElem?_map, h.flat k h1 h2]; rfl
  before := by
    obtain ⟨p, hp, hv⟩ := h.before
    exact ⟨c * p, by rw [List.getElem?_map, hp]; rfl, mul_lt_mul_of_pos_left hv hc⟩
  after := by
    obtain ⟨p, hp, hv⟩ := h.after
    exact ⟨c * p, by rw [List.getElem?_map, hp]; rfl, mul_lt_mul_of_pos_left hv hc⟩

theorem Top.reverse {x : List K} {l r : Nat} {v : K} (h : Top x l r v) :
    Top x.reverse (x.length - 1 - r) (x.length - 1 - l) v where
  left := by have := Top.lt h; omega
  le := by have := h.le; omega
  flat := fun k h1 h2 => by
    have := Top.lt h
    have := h.left
    have := h.le
    rw [List.getElem?_reverse (by omega)]
    exact h.flat _ (by omega) (by omega)
  before := by
    have := Top.lt h
    obtain ⟨p, hp, hv⟩ := h.after
    refine ⟨p, ?_, hv⟩
    rw [List.getElem?_reverse (by omega), ← hp]
    congr 1
    omega
  after := by
    have := Top.lt h
    have := h.left
    have := h.le
    obtain ⟨p, hp, hv⟩ := h.before
    refine ⟨p, ?_, hv⟩
    rw [List.getElem?_reverse (by omega), ← hp]
    congr 1
    omega

theorem peakCount_le_of_inj (x y : List K) (f : Nat × Nat → Nat × Nat) (hinj : ∀ a ∈ counted x, ∀ b ∈ counted x, f a = f b → a = b)
    (hf : ∀ a ∈ counted x, f a ∈ counted y) : peakCount x ≤ peakCount y := by
  rw [← counted_length, ← counted_length, ← List.length_map (f := f)]
  refine List.Subperm.length_le (List.subperm_of_subset ?_ ?_)
  · exact (List.nodup_map_iff_inj_on (counted_nodup x)).2 hinj
  · intro e he
    obtain ⟨a, ha, rfl⟩ := List.mem_map.1 he
    exact hf a ha

/-- **C145**: the number of peaks depends neither on the unit in which the component is measured … -/
theorem C145_unit (x : List K) {c : K} (hc : 0 < c) : peakCount (x.map (c * ·)) = peakCount x := by
  have key : ∀ (y : List K) (d : K), 0 < d → peakCount y ≤ peakCount (y.map (d * ·)) := by
    intro y d hd
    refine peakCount_le_of_inj y _ id (fun _ _ _ _ h => h) ?_
    rintro ⟨l, r⟩ h
    obtain ⟨v, ht, hv⟩ := (counted_mem _ _ _).1 h
    exact (counted_mem _ _ _).2 ⟨d * v, Top.scale hd ht, by positivity⟩
  refine le_antisymm ?_ (key x c hc)
  have h := key (x.map (c * ·)) c⁻¹ (by positivity)
  rw [List.map_map] at h
  have : ((fun z => c⁻¹ * z) ∘ fun z => c * z) = (id : K → K) := by
    funext z
    simp [hc.ne']
  rwa [this, List.map_id] at h

/-- … nor on the direction of time. -/
theorem C145_reversed (x : List K) : peakCount x.reverse = peakCount x := by
  have key : ∀ y : List K, peakCount y ≤ peakCount y.reverse := by
    intro y
    refine peakCount_le_of_inj y _ (fun e => (y.length - 1 - e.2, y.length - 1 - e.1)) ?_ ?_
    · rintro ⟨l, r⟩ h ⟨l', r'⟩ h' he
      obtain ⟨v, ht, _⟩ := (counted_mem _ _ _).1 h
      obtain ⟨v', ht', _⟩ := (counted_mem _ _ _).1 h'
      have h1 := Top.lt ht
      have h2 := ht.le
      have h3 := Top.lt ht'
      have h4 := ht'.le
      rw [Prod.mk.injEq] at he
      rw [Prod.mk.injEq]
      dsimp only at he
      omega
    · rintro ⟨l, r⟩ h
      obtain ⟨v, ht, hv⟩ := (counted_mem _ _ _).1 h
      exact (counted_mem _ _ _).2 ⟨v, Top.reverse ht, hv⟩
  refine le_antisymm ?_ (key x)
  have := key x.reverse
  rwa [List.reverse_reverse] at this

/-- A component with three peaks, one of them a plateau. -/
example : peakCount ([0, 2, 2, 2, 1, 3, 0, 1 / 2, 0] : List ℚ) = 3 ∧
    peakCount (([0, 2, 2, 2, 1, 3, 0, 1 / 2, 0] : List ℚ).map ((3 / 7) * ·)) = 3 ∧
    peakCount (([0, 2, 2, 2, 1, 3, 0, 1 / 2, 0] : List ℚ).reverse) = 3 := by decide +kernel

/-- **C145**: the mean period lies above two samples and does not exceed the length of the component. -/
theorem C145_period (imf : List ℝ) (h3 : 3 ≤ imf.length) :
    2 < period peakCount imf ∧ period peakCount imf ≤ imf.length := by
  have hn : (3 : ℝ) ≤ imf.length := by exact_mod_cast h3
  unfold period
  split
  · exact ⟨by linarith, le_refl _⟩
  · rename_i h0
    have hhalf := C145_half imf (by rintro rfl; simp at h3)
    have hc : (1 : ℝ) ≤ peakCount imf := by exact_mod_cast Nat.one_le_iff_ne_zero.2 h0
    have hh : 2 * (peakCount imf : ℝ) + 1 ≤ imf.length := by exact_mod_cast hhalf
    constructor
    · rw [lt_div_iff₀ (by linarith)]
      linarith
    · rw [div_le_iff₀ (by linarith)]
      nlinarith

/-- The period of a component with two peaks in five samples, and of one without peaks. -/
example : period peakCount ([-1, 1, -1, 1, -1] : List ℝ) = 5 / 2 ∧ period peakCount ([1, 1, 1] : List ℝ) = 3 := by
  have h1 : peakCount ([-1, 1, -1, 1, -1] : List ℝ) = 2 := by
    norm_num [peakCount, findPeaks, localMaxima, ahead, lit_zero]
  have h2 : peakCount ([1, 1, 1] : List ℝ) = 0 := by
    norm_num [peakCount, findPeaks, localMaxima, ahead, lit_zero]
  constructor
  · simp only [period, h1]
    norm_num
  · simp only [period, h2]
    norm_num

/-- **C145**: whether the rescaling component of the a-posteriori test is flagged depends on its number of peaks only: it is
flagged when it has more than four samples per peak. -/
theorem C145_rescaling {ppf : ℝ → ℝ} (hq : NormalQuantile ppf) {imfs : List (List ℝ)} {N : ℕ} (hrect : Rectangular imfs N)
    (hnz : ∀ imf ∈ imfs, NonZero imf) {a : ℝ} {i : ℕ} {ref : List ℝ} (hi : imfs[i]? = some ref) {out : List (ℕ × ℤ)}
    (h : whitenoiseCheck (realFns ppf peakCount) (.val imfs) "aposteriori" (.val (i + 1 : ℕ)) (.val a) = .ok (some out)) :
    out[i]? = some (i + 1, 1) ↔ 4 < N ∧ 4 * peakCount ref < N := by
  rw [C53_rescaling_partial hq hrect hnz hi h]
  have hl : ref.length = N := hrect.2.2 ref (List.mem_of_getElem? hi)
  unfold period
  rw [hl]
  split
  · rename_i h0
    rw [h0]
    constructor
    · intro h4
      have : 4 < N := by exact_mod_cast h4
      exact ⟨this, by omega⟩
    · rintro ⟨h4, _⟩
      exact_mod_cast h4
  · rename_i h0
    have hc : (0 : ℝ) < peakCount ref := by exact_mod_cast Nat.pos_of_ne_zero h0
    rw [lt_div_iff₀ hc]
    constructor
    · intro h4
      have : 4 * peakCount ref < N := by exact_mod_cast h4
      exact ⟨by omega, this⟩
    · rintro ⟨_, h4⟩
      exact_mod_cast h4

/-- Both verdicts occur: two peaks in five samples, one peak in five samples. -/
def sampleUp : List ℝ := [-1, 1, -1, 1, -1]

theorem sampleUp_count : peakCount sampleUp = 2 := by
  norm_num [sampleUp, peakCount, findPeaks, localMaxima, ahead, lit_zero]

theorem sampleDown_count : peakCount (sampleUp.map (- ·)) = 1 := by
  norm_num [sampleUp, peakCount, findPeaks, localMaxima, ahead, lit_zero]

theorem sampleUp_rect : Rectangular [sampleUp] 5 ∧ Rectangular [sampleUp.map (- ·)] 5 := by
  refine ⟨⟨by norm_num, by simp, ?_⟩, ⟨by norm_num, by simp, ?_⟩⟩ <;>
  · intro imf h
    rw [List.mem_singleton] at h
    subst h
    simp [sampleUp]

theorem sampleUp_nz : (∀ imf ∈ [sampleUp], NonZero imf) ∧ ∀ imf ∈ [sampleUp.map (- ·)], NonZero imf := by
  constructor <;>
  · intro imf h
    rw [List.mem_singleton] at h
    subst h
    exact ⟨1, by simp [sampleUp], by norm_num⟩

theorem sampleUp_args (ppf : ℝ → ℝ) : ArgsOk (realFns ppf peakCount) 1 "aposteriori" (.val ((0 + 1 : ℕ) : ℤ)) (.val (1 / 2)) :=
  ⟨⟨1 / 2, rfl, by rw [lit_zero]; norm_num, by rw [lit_one]; norm_num⟩, Or.inr rfl, 1, rfl, le_refl _, by simp⟩

/-- The hypotheses of `C145_rescaling` are met by this component and by its negative; the first is not flagged, the second is. -/
example : ∃ out out',
    whitenoiseCheck (realFns (fun p => p - 1 / 2) peakCount) (.val [sampleUp]) "aposteriori" (.val ((0 + 1 : ℕ) : ℤ))
      (.val (1 / 2)) = .ok (some out) ∧
    whitenoiseCheck (realFns (fun p => p - 1 / 2) peakCount) (.val [sampleUp.map (- ·)]) "aposteriori" (.val ((0 + 1 : ℕ) : ℤ))
      (.val (1 / 2)) = .ok (some out') ∧ ¬ out[0]? = some (1, 1) ∧ out'[0]? = some (1, 1) := by
  obtain ⟨out, h, _⟩ := C51_total_partial sampleUp_rect.1 sampleUp_nz.1 (sampleUp_args (fun p => p - 1 / 2))
  obtain ⟨out', h', _⟩ := C51_total_partial sampleUp_rect.2 sampleUp_nz.2 (sampleUp_args (fun p => p - 1 / 2))
  refine ⟨out, out', h, h', ?_, ?_⟩
  · rw [C145_rescaling sampleQuantile sampleUp_rect.1 sampleUp_nz.1 (i := 0) rfl h, sampleUp_count]
    norm_num
  · rw [C145_rescaling sampleQuantile sampleUp_rect.2 sampleUp_nz.2 (i := 0) rfl h', sampleDown_count]
    norm_num

end Checks
end PyEMD
