import Verif.Lemmas.ScipyQuad
import Verif.Props.NoRaise

/-!
# The interpolators of scipy and the envelopes built with them (C96–C100)
-/

set_option linter.unusedSectionVars false

namespace PyEMD
namespace Scipy
open EMD.Spec PyEMD.Spec

variable {K : Type} [Field K] [LinearOrder K] [IsStrictOrderedRing K] [FloorRing K]

/-! ## C98: the contracts assumed elsewhere hold for the formulas of scipy -/

/-- C98: all interpolators accept at least three increasing knots. -/
theorem C98_accepts : AcceptsAll (scipy : SciPy K) := by
  refine ⟨?_, ?_, ?_, ?_, linear_accepts, quadratic_accepts, linear_accepts⟩
  · show Accepts (akima : Interp K); rw [akima_eq]; exact viaSlopes_accepts le_rfl
  · show Accepts (cubic : Interp K); rw [cubic_eq]; exact viaSlopes_accepts le_rfl
  · show Accepts (pchip : Interp K); rw [pchip_eq]; exact viaSlopes_accepts (by omega)
  · show Accepts (cubicHermite : Interp K); rw [cubicHermite_eq]; exact viaSlopes_accepts (by omega)

theorem akima_equivariant : Equivariant (akima : Interp K) := by rw [akima_eq]; exact viaSlopes_equivariant akima_rule
theorem cubic_equivariant : Equivariant (cubic : Interp K) := by rw [cubic_eq]; exact viaSlopes_equivariant cubic_rule
theorem pchip_equivariant : Equivariant (pchip : Interp K) := by rw [pchip_eq]; exact viaSlopes_equivariant pchip_rule
theorem cubicHermite_equivariant : Equivariant (cubicHermite : Interp K) := by rw [cubicHermite_eq]; exact viaSlopes_equivariant gradient_rule

/-- C98: all interpolators commute with a change of sign of the values. -/
theorem C98_odd : OddAll (scipy : SciPy K) :=
  ⟨akima_equivariant.odd, cubic_equivariant.odd, pchip_equivariant.odd, cubicHermite_equivariant.odd, linear_equivariant.odd,
    quadratic_equivariant.odd, linear_equivariant.odd⟩

/-- C98: all interpolators commute with a change of unit and offset of the values. -/
theorem C98_affine : AffineAll (scipy : SciPy K) :=
  ⟨akima_equivariant.affine, cubic_equivariant.affine, pchip_equivariant.affine, cubicHermite_equivariant.affine, linear_equivariant.affine,
    quadratic_equivariant.affine, linear_equivariant.affine⟩

/-- C98: no interpolator prefers a direction of time. -/
theorem C98_reversible : ReversibleAll (scipy : SciPy K) := by
  refine ⟨?_, ?_, ?_, ?_, linear_reversible, quadratic_reversible, linear_reversible⟩
  · show Reversible (akima : Interp K); rw [akima_eq]; exact viaSlopes_reversible akima_rule
  · show Reversible (cubic : Interp K); rw [cubic_eq]; exact viaSlopes_reversible cubic_rule
  · show Reversible (pchip : Interp K); rw [pchip_eq]; exact viaSlopes_reversible pchip_rule
  · show Reversible (cubicHermite : Interp K); rw [cubicHermite_eq]; exact viaSlopes_reversible gradient_rule

/-- C98: unit and origin of time have no influence on any of them. -/
theorem C98_time : TimeFree (akima : Interp K) ∧ TimeFree (cubic : Interp K) ∧ TimeFree (pchip : Interp K) ∧
    TimeFree (cubicHermite : Interp K) ∧ TimeFree (quadratic : Interp K) ∧ TimeFree (linear : Interp K) :=
  ⟨akima_equivariant.timeFree, cubic_equivariant.timeFree, pchip_equivariant.timeFree, cubicHermite_equivariant.timeFree,
    quadratic_equivariant.timeFree, linear_equivariant.timeFree⟩

/-- The interpolators return something: knots 0, 1, 3, 4 and values 0, 2, 1, 1 at 1/2 and 2. -/
example : (akima [0, 1, 3, 4] [0, 2, 1, 1] [1 / 2, 2] : Option (List ℚ)) = some [17 / 12, 3 / 2] ∧
    (cubic [0, 1, 3, 4] [0, 2, 1, 1] [1 / 2, 2] : Option (List ℚ)) = some [131 / 96, 11 / 6] ∧
    (pchip [0, 1, 3, 4] [0, 2, 1, 1] [1 / 2, 2] : Option (List ℚ)) = some [65 / 48, 3 / 2] ∧
    (cubicHermite [0, 1, 3, 4] [0, 2, 1, 1] [1 / 2, 2] : Option (List ℚ)) = some [53 / 48, 11 / 6] ∧
    (quadratic [0, 1, 3, 4] [0, 2, 1, 1] [1 / 2, 2] : Option (List ℚ)) = some [61 / 48, 11 / 6] ∧
    (linear [0, 1, 3, 4] [0, 2, 1, 1] [1 / 2, 2] : Option (List ℚ)) = some [1, 3 / 2] := by decide +kernel

/-- With the formulas of scipy the default `emd` returns (C22 without an assumption on scipy). -/
theorem C98_emd_returns (fuel : Nat) (cfg : EMD.Cfg K) (hd : cfg.detection = .simple) (hnb : 1 ≤ cfg.nbsym) (hk : cfg.splineKind ≠ .unknown)
    (S : List K) (hS : 2 ≤ S.length) (T : Option (List K)) (hT : ∀ T', T = some T' → T'.length = S.length) (k : Nat) (hk1 : 1 ≤ k)
    (hf : k ≤ fuel) : ∃ R, EMD.emdPure fuel scipy cfg S T k = .ok R :=
  EMD.C22_returns fuel scipy C98_accepts cfg hd hnb hk S hS T hT k hk1 hf

/-- A decomposition with the cubic spline of scipy. -/
example : okWith (fun R : EMD.Result ℚ => decide (R.rows.length = 2)) (EMD.emdPure 3 scipy EMD.sampleFixe EMD.sampleS none 1) = true := by
  decide +kernel

/-! ## C96: the envelopes touch the signal at its extrema -/

/-- C96: every interpolator passes through its knots. -/
theorem C96_through : PassesAll (scipy : SciPy K) := by
  refine ⟨?_, ?_, ?_, ?_, linear_through, quadratic_through, linear_through⟩
  · show PassesThrough (akima : Interp K); rw [akima_eq]; exact viaSlopes_through (by omega)
  · show PassesThrough (cubic : Interp K); rw [cubic_eq]; exact viaSlopes_through (by omega)
  · show PassesThrough (pchip : Interp K); rw [pchip_eq]; exact viaSlopes_through (by omega)
  · show PassesThrough (cubicHermite : Interp K); rw [cubicHermite_eq]; exact viaSlopes_through (by omega)

/-! ## C100: straight lines -/

/-- C100: every interpolator continues a straight line as a straight line. -/
theorem C100_lines : KeepsLines (akima : Interp K) ∧ KeepsLines (cubic : Interp K) ∧ KeepsLines (pchip : Interp K) ∧
    KeepsLines (cubicHermite : Interp K) ∧ KeepsLines (quadratic : Interp K) ∧ KeepsLines (linear : Interp K) :=
  ⟨by rw [akima_eq]; exact viaSlopes_lines akima_rule, by rw [cubic_eq]; exact viaSlopes_lines cubic_rule,
    by rw [pchip_eq]; exact viaSlopes_lines pchip_rule, by rw [cubicHermite_eq]; exact viaSlopes_lines gradient_rule, quadratic_lines, linear_lines⟩

example : (akima [0, 1, 3] ([0, 1, 3].map (fun x => 2 * x + 1)) [1 / 2, 2] : Option (List ℚ)) = some [2, 5] ∧
    (quadratic [0, 1, 3, 7] ([0, 1, 3, 7].map (fun x => 2 * x + 1)) [1 / 2, 2] : Option (List ℚ)) = some [2, 5] := by decide +kernel

/-! ## C97: no overshoot -/

/-- C97: `pchip`, `linear` and `slinear` never leave the range of the two neighbouring knots. -/
theorem C97_no_overshoot : NoOvershoot (scipy : SciPy K).pchip ∧ NoOvershoot (scipy : SciPy K).linear ∧ NoOvershoot (scipy : SciPy K).slinear :=
  ⟨pchip_no_overshoot, linear_no_overshoot, linear_no_overshoot⟩

/-- The other ones do: with the values 0, 1, 1, 0 at 0, 1, 2, 3 the cubic and the quadratic spline exceed 1 half way between 1 and 2, and so do `akima`
and `cubic_hermite`. -/
theorem C97_counterexample : ¬ NoOvershoot (cubic : Interp ℚ) ∧ ¬ NoOvershoot (quadratic : Interp ℚ) ∧ ¬ NoOvershoot (akima : Interp ℚ) ∧
    ¬ NoOvershoot (cubicHermite : Interp ℚ) := by
  have hX : ([0, 1, 2, 3] : List ℚ).Pairwise (· < ·) := by decide +kernel
  have key : ∀ (f : Interp ℚ) (v : ℚ), f [0, 1, 2, 3] [0, 1, 1, 0] [3 / 2] = some [v] → 1 < v → ¬ NoOvershoot f := by
    intro f v h hv hn
    have := (hn [0, 1, 2, 3] [0, 1, 1, 0] [3 / 2] [v] hX rfl h 1 0 1 2 1 1 (3 / 2) v rfl rfl rfl rfl rfl (by norm_num) (by norm_num) rfl).2
    simp at this
    linarith
  exact ⟨key cubic (9 / 8) (by decide +kernel) (by norm_num), key quadratic (9 / 8) (by decide +kernel) (by norm_num),
    key akima (9 / 8) (by decide +kernel) (by norm_num), key cubicHermite (9 / 8) (by decide +kernel) (by norm_num)⟩

/-! ## C99: the spline is the one it is said to be -/

/-- C99: for at least four increasing knots there is exactly one not-a-knot spline, and `cubic` evaluates it. -/
theorem C99_not_a_knot (X Y : List K) (h4 : 4 ≤ X.length) (hlen : X.length = Y.length) (hX : X.Pairwise (· < ·)) :
    ∃ p, NotAKnot X.length (fun i => X.getD i 0) (fun i => Y.getD i 0) p ∧
      (∀ p', NotAKnot X.length (fun i => X.getD i 0) (fun i => Y.getD i 0) p' → ∀ i < X.length - 1, p' i = p i) ∧
      ∀ t, ∃ q, cubic X Y t = some q ∧ q.length = t.length ∧ ∀ (i j : ℕ) (x0 x1 τ : K), X[i]? = some x0 → X[i + 1]? = some x1 → t[j]? = some τ →
        x0 ≤ τ → τ ≤ x1 → q[j]? = some ((p i).val τ) := by
  have hI := incr_entry hX
  have e : ∀ Z : List K, (fun i => Z.getD i 0) = entry Z := fun Z => by funext i; rw [entry, lit_zero]
  rw [e, e]
  obtain ⟨s, hs⟩ := cubicSlopes_total hI (by omega) (entry Y)
  refine ⟨pieceCubic (entry X) (entry Y) (entry s), (notAKnot_iff hI h4).1 (cubicSlopes_solves hs).2, ?_, ?_⟩
  · intro p' hp' i hi
    exact notAKnot_unique hI h4 hs hp' i hi
  · intro t
    have hr : refuses 3 X Y = false := (refuses_iff _ _ _).2 ⟨by omega, hlen, hX⟩
    refine ⟨t.map (cubicAt (entry X) (entry Y) (entry s) X.length), by unfold cubic; rw [hr]; simp [hs], by simp, ?_⟩
    intro i j x0 x1 τ h0 h1 hj l r
    have hi : i + 1 < X.length := by
      by_contra h
      rw [List.getElem?_eq_none (by omega)] at h1
      cases h1
    rw [List.getElem?_eq_getElem (by omega)] at h0 h1
    injection h0 with h0
    injection h1 with h1
    rw [List.getElem?_map, hj, Option.map_some, pieceCubic_val _ _ _ _ _ (hI.dx_pos hi).ne',
      cubicAt_eq _ _ _ _ _ hI i hi (by rw [entry_eq _ _ (by omega), h0]; exact l) (by rw [entry_eq _ _ hi, h1]; exact r)]

/-- C99: `cubic` reproduces polynomials of degree at most three. -/
theorem C99_polynomials (X : List K) (h4 : 4 ≤ X.length) (hX : X.Pairwise (· < ·)) (c : Cubic K) (t : List K)
    (ht : ∀ τ ∈ t, ∃ a b, X.head? = some a ∧ X.getLast? = some b ∧ a ≤ τ ∧ τ ≤ b) : cubic X (X.map c.val) t = some (t.map c.val) := by
  obtain ⟨p, -, hu, hev⟩ := C99_not_a_knot X (X.map c.val) h4 (by simp) hX
  have hval : ∀ i < X.length, (X.map c.val).getD i 0 = c.val (X.getD i 0) := by
    intro i hi
    simp [List.getD, hi]
  have hc := hu (fun _ => c) ⟨fun i hi => (hval i (by omega)).symm, fun i hi => (hval (i + 1) (by omega)).symm, fun _ _ => rfl, fun _ _ => rfl, rfl, rfl⟩
  obtain ⟨q, hq, hl, hval⟩ := hev t
  rw [hq]
  congr 1
  apply List.ext_getElem?
  intro j
  by_cases hj : j < t.length
  · have hrg := range_entry (by omega) ht (t[j]) (List.getElem_mem hj)
    obtain ⟨i, hi, l, r⟩ := exists_interval (entry X) X.length (t[j]) (by omega) hrg.1 hrg.2
    rw [entry_eq _ _ (by omega)] at l
    rw [entry_eq _ _ hi] at r
    rw [hval i j _ _ _ (List.getElem?_eq_getElem (by omega)) (List.getElem?_eq_getElem hi) (List.getElem?_eq_getElem hj) l r, ← hc i (by omega)]
    simp [hj]
  · rw [List.getElem?_eq_none (by omega), List.getElem?_eq_none (by simpa using hj)]

/-- C99: for at least three increasing knots there is exactly one quadratic spline with breaks half way between the inner knots, and
`quadratic` evaluates it. -/
theorem C99_quadratic (X Y : List K) (h3 : 3 ≤ X.length) (hlen : X.length = Y.length) (hX : X.Pairwise (· < ·)) :
    ∃ p, HalfWay X.length (fun i => X.getD i 0) (fun i => Y.getD i 0) p ∧
      (∀ p', HalfWay X.length (fun i => X.getD i 0) (fun i => Y.getD i 0) p' → ∀ i, 0 < i → i < X.length - 1 → p' i = p i) ∧
      ∀ t, ∃ q, quadratic X Y t = some q ∧ q.length = t.length ∧ ∀ (i j : ℕ) (τ : K), 0 < i → i < X.length - 1 → t[j]? = some τ →
        (1 < i → (X.getD (i - 1) 0 + X.getD i 0) / 2 ≤ τ) → (i < X.length - 2 → τ ≤ (X.getD i 0 + X.getD (i + 1) 0) / 2) →
        q[j]? = some ((p i).val τ) := by
  have hI := incr_entry hX
  have e : ∀ Z : List K, (fun i => Z.getD i 0) = entry Z := fun Z => by funext i; rw [entry, lit_zero]
  have e' : ∀ (Z : List K) i, Z.getD i 0 = entry Z i := fun Z i => by rw [entry, lit_zero]
  rw [e, e]
  have hs := quadRule_slopes hI h3 (entry Y)
  refine ⟨quadCubic (entry X) (entry Y) (quadRule (entry X) (entry Y) X.length), halfWay_of hI h3 hs, ?_, ?_⟩
  · intro p' hp' i i0 i1
    exact halfWay_unique hI h3 hp' i i0 i1
  · intro t
    have hr : refuses 3 X Y = false := (refuses_iff _ _ _).2 ⟨by omega, hlen, hX⟩
    refine ⟨t.map (quadAt (entry X) (entry Y) (quadRule (entry X) (entry Y) X.length) X.length), by rw [quadratic_eq]; simp [hr], by simp, ?_⟩
    intro i j τ i0 i1 hj l r
    rw [List.getElem?_map, hj, Option.map_some, quadCubic_val, quadAt_eq hI h3 hs i τ]
    refine ⟨i0, by omega, fun h => ?_, fun h => ?_⟩
    · have := l h
      rw [e', e'] at this
      rw [half_eq, show i - 1 + 1 = i by omega]
      exact this
    · have := r (by omega)
      rw [e', e'] at this
      rw [half_eq]
      exact this

/-- The spline through 0, 1, 8, 27, 0 at 0, …, 4 is not a cubic polynomial; the one through 0, 1, 8, 27, 64 is. -/
example : (cubic [0, 1, 2, 3, 4] [0, 1, 8, 27, 64] [1 / 2, 7 / 2] : Option (List ℚ)) = some [1 / 8, 343 / 8] ∧
    (cubic [0, 1, 2, 3, 4] [0, 1, 8, 27, 0] [1 / 2] : Option (List ℚ)) = some [9 / 8] := by decide +kernel

end Scipy

namespace EMD
open EMD.Spec PyEMD.Spec

variable {K : Type} [Field K] [LinearOrder K] [IsStrictOrderedRing K] [FloorRing K]

/-- Splines through increasing knots that cover the time stamps: one value per time stamp, the value of the knot where there is one. -/
theorem splinePoints_through {sp : SciPy K} (hsp : PassesAll sp) {kind : SplineKind} {T : List K}
    (hT : T.Pairwise (· ≤ ·)) {k : List (K × K)} (three : 3 ≤ k.length) (increasing : k.Pairwise (fun p q => p.1 < q.1))
    (hc : ∃ p q, k.head? = some p ∧ k.getLast? = some q ∧ ∀ τ ∈ T, p.1 ≤ τ ∧ τ ≤ q.1) {t q : List K}
    (h : splinePoints sp kind T k = .ok (t, q)) :
    q.length = T.length ∧ ∀ (j : Nat) (τ v : K), T[j]? = some τ → (τ, v) ∈ k → q[j]? = some v := by
  obtain ⟨p, q', hp, hq, hcov⟩ := hc
  have hne : k ≠ [] := by rintro rfl; cases hp
  have hX0 : (k.map (·.1)) ≠ [] := by simpa using hne
  have e0 : pyGet (k.map (·.1)) 0 = .ok p.1 := by
    match k, hp with
    | _ :: _, hp => simp at hp; subst hp; exact pyGet_cons _ _
  have eL : pyGet (k.map (·.1)) (-1) = .ok q'.1 := by
    rw [pyGet_last _ hX0, List.getLast_map hX0]
    rw [List.getLast?_eq_some_getLast hne] at hq
    injection hq with hq
    rw [hq]
  have efil : T.filter (fun τ => decide (p.1 ≤ τ) && decide (τ ≤ q'.1)) = T := by
    rw [List.filter_eq_self]
    intro τ hτ
    simp [hcov τ hτ]
  have hthr : ∀ f : Interp K, PassesThrough f → ∀ v, f (k.map (·.1)) (k.map (·.2)) T = some v → v.length = T.length ∧
      ∀ (j : Nat) (τ w : K), T[j]? = some τ → (τ, w) ∈ k → v[j]? = some w := by
    intro f hf v hv
    obtain ⟨a1, a2⟩ := hf _ _ _ _ (by rw [List.pairwise_map]; exact increasing) (by simp) hv
    refine ⟨a1, ?_⟩
    intro j τ w hj hm
    obtain ⟨i, hi, e⟩ := List.getElem_of_mem hm
    have hj' : j < T.length := by
      by_contra hn
      rw [List.getElem?_eq_none (by omega)] at hj
      cases hj
    rw [a2 i j (by simpa using hi) hj' (by rw [hj]; simp [hi, e])]
    simp [hi, e]
  unfold splinePoints at h
  simp only [e0, eL, bind, Except.bind, efil, pure, Except.pure] at h
  obtain ⟨a1, a2, a3, a4, a5, a6, a7⟩ := hsp
  have fin : ∀ f : Interp K, PassesThrough f → ∀ o : Option (List K), f (k.map (·.1)) (k.map (·.2)) T = o → ∀ v, o = some v → v = q →
      q.length = T.length ∧ ∀ (j : Nat) (τ v : K), T[j]? = some τ → (τ, v) ∈ k → q[j]? = some v := by
    rintro f hf o ho v hv rfl
    exact hthr f hf _ (ho.trans hv)
  cases kind with
  | unknown => cases h
  | akima =>
    cases hv : sp.akima (k.map (·.1)) (k.map (·.2)) T with
    | none => simp [hv, ofScipy] at h
    | some v => simp [hv, ofScipy] at h; exact fin _ a1 _ hv v rfl h.2
  | pchip =>
    cases hv : sp.pchip (k.map (·.1)) (k.map (·.2)) T with
    | none => simp [hv, ofScipy] at h
    | some v => simp [hv, ofScipy] at h; exact fin _ a3 _ hv v rfl h.2
  | cubicHermite =>
    cases hv : sp.cubicHermite (k.map (·.1)) (k.map (·.2)) T with
    | none => simp [hv, ofScipy] at h
    | some v => simp [hv, ofScipy] at h; exact fin _ a4 _ hv v rfl h.2
  | slinear =>
    cases hv : sp.slinear (k.map (·.1)) (k.map (·.2)) T with
    | none => simp [hv, ofScipy] at h
    | some v => simp [hv, ofScipy] at h; exact fin _ a5 _ hv v rfl h.2
  | quadratic =>
    cases hv : sp.quadratic (k.map (·.1)) (k.map (·.2)) T with
    | none => simp [hv, ofScipy] at h
    | some v => simp [hv, ofScipy] at h; exact fin _ a6 _ hv v rfl h.2
  | linear =>
    cases hv : sp.linear (k.map (·.1)) (k.map (·.2)) T with
    | none => simp [hv, ofScipy] at h
    | some v => simp [hv, ofScipy] at h; exact fin _ a7 _ hv v rfl h.2
  | cubic =>
    simp only [] at h
    split at h
    · cases hv : sp.cubic (k.map (·.1)) (k.map (·.2)) T with
      | none => simp [hv, ofScipy] at h
      | some v => simp [hv, ofScipy] at h; exact fin _ a2 _ hv v rfl h.2
    · have h3 : k.length = 3 := by omega
      match k, h3, increasing, hp, hq, h with
      | [k0, k1, k2], _, hi, hp, hq, h =>
        simp only [List.pairwise_cons, List.mem_cons, List.not_mem_nil, or_false] at hi
        have i1 := hi.1 k1 (.inl rfl)
        have i2 := hi.2.1 k2 rfl
        obtain ⟨pp, qq, hn, hs⟩ := C24_natural_spline k0.1 k1.1 k2.1 k0.2 k1.2 k2.2 i1 i2
        simp at hp hq
        subst hp
        subst hq
        have := hs T hT
        rw [efil] at this
        simp only [List.map_cons, List.map_nil] at h
        rw [this] at h
        injection h with h
        injection h with _ h
        subst h
        refine ⟨by simp, ?_⟩
        intro j τ v hj hm
        rw [List.getElem?_map, hj, Option.map_some]
        simp only [List.mem_cons, List.not_mem_nil, or_false] at hm
        rcases hm with hm | hm | hm
        · rw [← hm] at i1 hn
          rw [if_pos i1, hn.v0]
        · rw [← hm] at i1 i2 hn ⊢
          rw [if_neg (lt_irrefl _), hn.v1']
        · rw [← hm] at i2 hn
          rw [if_neg (not_lt.2 i2.le), hn.v2]

theorem zip_of_mem {n : Nat} {S : List K} {X : List Nat} (hS : S.length = n) (hX : ∀ i ∈ X, i + 1 < n) {k : Nat}
    (hk : (k : K) ∈ X.map (sAt (timeArr n))) :
    k < n ∧ ((k : K), sAt S k) ∈ (X.map (sAt (timeArr n))).zip (X.map (sAt S)) := by
  rw [List.mem_map] at hk
  obtain ⟨i, hi, e⟩ := hk
  have h1 := hX i hi
  have h := timeArr_getD (K := K) n (i : Int) (by omega) (by omega)
  have h' : sAt (timeArr n : List K) i = (i : K) := by simpa [sAt] using h
  rw [h'] at e
  have e : i = k := by exact_mod_cast e
  subst e
  refine ⟨by omega, ?_⟩
  rw [List.zip_map', List.mem_map]
  exact ⟨i, hi, by rw [h']⟩

/-- C96: with simple detection and the default time axis both envelopes have one value per sample; the upper one has the value of the signal at
every reported maximum and the lower one at every reported minimum. -/
theorem C96_envelopes (sp : SciPy K) (hsp : PassesAll sp) (kind : SplineKind) (nbsym : Int) (hnb : 1 ≤ nbsym) (S T : List K)
    (hT : T = (List.range S.length).map (fun k : Nat => (k : K))) (e : Extrema K) (he : findExtrema .simple T S = .ok e) (env : Envelopes K)
    (h : extractMaxMinSpline sp .simple kind nbsym T S = .ok (some env)) :
    env.maxEnv.length = S.length ∧ env.minEnv.length = S.length ∧
      (∀ k : Nat, (k : K) ∈ e.maxPos → env.maxEnv[k]? = S[k]?) ∧ (∀ k : Nat, (k : K) ∈ e.minPos → env.minEnv[k]? = S[k]?) := by
  have hT' : T = timeArr S.length := hT
  subst hT'
  unfold extractMaxMinSpline at h
  simp only [he, bind, Except.bind] at h
  by_cases h3 : e.maxPos.length + e.minPos.length < 3
  · rw [if_pos h3] at h; cases h
  rw [if_neg h3] at h
  obtain ⟨kmax, kmin, h1, g1, g2⟩ := C21_knots nbsym hnb S _ rfl e he (by omega)
  simp only [show preparePoints .simple nbsym (timeArr S.length) S e = _ from h1] at h
  cases hs1 : splinePoints sp kind (timeArr S.length) kmax with
  | error err => rw [hs1] at h; cases h
  | ok r1 =>
    obtain ⟨t1, q1⟩ := r1
    cases hs2 : splinePoints sp kind (timeArr S.length) kmin with
    | error err => rw [hs1, hs2] at h; cases h
    | ok r2 =>
      obtain ⟨t2, q2⟩ := r2
      rw [hs1] at h
      simp only [hs2, pure, Except.pure] at h
      injection h with h
      injection h with h
      subst h
      have a1 := splinePoints_through hsp (timeArr_sorted _) g1.three g1.increasing g1.covers hs1
      have a2 := splinePoints_through hsp (timeArr_sorted _) g2.three g2.increasing g2.covers hs2
      rw [timeArr_length] at a1 a2
      have he' := findExtremaSimple_eq (timeArr S.length : List K) S (timeArr_length _)
      rw [show findExtrema .simple (timeArr S.length : List K) S = _ from he'] at he
      injection he with he
      subst he
      have ht : ∀ k, k < S.length → (timeArr S.length : List K)[k]? = some (k : K) := by
        intro k hk
        simp [timeArr, hk]
      have hv : ∀ k, k < S.length → S[k]? = some (sAt S k) := by
        intro k hk
        simp [sAt, List.getD, hk]
      refine ⟨a1.1, a2.1, ?_, ?_⟩
      · intro k hk
        obtain ⟨b1, b2⟩ := zip_of_mem rfl (fun i hi => reported_lt isPos_zero isNeg_zero hi) hk
        rw [hv k b1]
        exact a1.2 k k _ (ht k b1) (g1.extrema _ b2)
      · intro k hk
        obtain ⟨b1, b2⟩ := zip_of_mem rfl (fun i hi => reported_lt isNeg_zero isPos_zero hi) hk
        rw [hv k b1]
        exact a2.2 k k _ (ht k b1) (g2.extrema _ b2)

/-- C96 without reference to the detected extrema: at a sample larger than both neighbours the upper envelope has the value of the signal, at a
sample smaller than both neighbours the lower one. -/
theorem C96_touches (sp : SciPy K) (hsp : PassesAll sp) (kind : SplineKind) (nbsym : Int) (hnb : 1 ≤ nbsym) (S T : List K)
    (hT : T = (List.range S.length).map (fun k : Nat => (k : K))) (env : Envelopes K)
    (h : extractMaxMinSpline sp .simple kind nbsym T S = .ok (some env)) (k : Nat) (a b c : K) (ha : S[k]? = some a) (hb : S[k + 1]? = some b)
    (hc : S[k + 2]? = some c) :
    (a < b → c < b → env.maxEnv[k + 1]? = some b) ∧ (b < a → b < c → env.minEnv[k + 1]? = some b) := by
  have hlen : T.length = S.length := by subst hT; simp
  obtain ⟨e, mx, mn, he, -, -, h1, h2, h3, h4⟩ := C15_characterised T S hlen
  obtain ⟨-, -, g1, g2⟩ := C96_envelopes sp hsp kind nbsym hnb S T hT e he env h
  have hk : k + 1 < S.length := by
    by_contra hn
    rw [List.getElem?_eq_none (by omega)] at hb
    cases hb
  have hTk : T[k + 1]? = some ((k + 1 : Nat) : K) := by subst hT; simp [hk]
  have mem : ∀ {idx : List Nat} {pos val : List K}, At T S idx pos val → k + 1 ∈ idx → ((k + 1 : Nat) : K) ∈ pos := by
    intro idx pos val hA hm
    have h5 : (some ((k + 1 : Nat) : K)) ∈ pos.map some := by
      rw [hA.1, List.mem_map]
      exact ⟨k + 1, hm, hTk⟩
    simpa using h5
  constructor
  · intro l r
    rw [← hb]
    refine g1 (k + 1) (mem h1 ((h3 (k + 1)).2 (.inl ⟨k + 1, k + 1, ⟨by omega, le_rfl, b, a, c, ?_, ?_, hc, l, r⟩, by omega, .inl (by omega)⟩)))
    · intro i i0 i1
      rw [show i = k + 1 by omega, hb]
    · simpa using ha
  · intro l r
    rw [← hb]
    refine g2 (k + 1) (mem h2 ((h4 (k + 1)).2 (.inl ⟨k + 1, k + 1, ⟨by omega, le_rfl, b, a, c, ?_, ?_, hc, l, r⟩, by omega, .inl (by omega)⟩)))
    · intro i i0 i1
      rw [show i = k + 1 by omega, hb]
    · simpa using ha

/-- With the interpolators of scipy: every kind of envelope of `sampleS` touches it. -/
example : [SplineKind.akima, .cubic, .pchip, .cubicHermite, .slinear, .quadratic, .linear].all (fun kind =>
    okWith (fun o : Option (Envelopes ℚ) => match o with
      | none => false
      | some env => decide (env.maxEnv[1]? = some (3 : ℚ)) && decide (env.minEnv[2]? = some (-1 : ℚ)) && decide (env.maxEnv.length = 10))
      (extractMaxMinSpline Scipy.scipy .simple kind 2 (timeArr 10) sampleS)) = true := by decide +kernel

/-! ### Envelopes without overshoot -/

/-- The envelope of this kind is made by `f`. -/
def MadeBy (sp : SciPy K) (kind : SplineKind) (f : Interp K) : Prop :=
  (kind = .pchip ∧ f = sp.pchip) ∨ (kind = .linear ∧ f = sp.linear) ∨ (kind = .slinear ∧ f = sp.slinear)

theorem splinePoints_between {sp : SciPy K} {kind : SplineKind} {f : Interp K} (hm : MadeBy sp kind f) (ht : PassesThrough f) (hf : NoOvershoot f)
    {T : List K} {k : List (K × K)} (three : 3 ≤ k.length) (increasing : k.Pairwise (fun p q => p.1 < q.1))
    (hc : ∃ p q, k.head? = some p ∧ k.getLast? = some q ∧ ∀ τ ∈ T, p.1 ≤ τ ∧ τ ≤ q.1) {t q : List K}
    (h : splinePoints sp kind T k = .ok (t, q)) :
    ∀ v ∈ q, ∃ a b, a ∈ k ∧ b ∈ k ∧ a.2 ≤ v ∧ v ≤ b.2 := by
  obtain ⟨p, q', hp, hq, hcov⟩ := hc
  have hne : k ≠ [] := by rintro rfl; cases hp
  have hX0 : (k.map (·.1)) ≠ [] := by simpa using hne
  have e0 : pyGet (k.map (·.1)) 0 = .ok p.1 := by
    match k, hp with
    | _ :: _, hp => simp at hp; subst hp; exact pyGet_cons _ _
  have eL : pyGet (k.map (·.1)) (-1) = .ok q'.1 := by
    rw [pyGet_last _ hX0, List.getLast_map hX0]
    rw [List.getLast?_eq_some_getLast hne] at hq
    injection hq with hq
    rw [hq]
  have efil : T.filter (fun τ => decide (p.1 ≤ τ) && decide (τ ≤ q'.1)) = T := by
    rw [List.filter_eq_self]
    intro τ hτ
    simp [hcov τ hτ]
  have hv : f (k.map (·.1)) (k.map (·.2)) T = some q := by
    unfold splinePoints at h
    simp only [e0, eL, bind, Except.bind, efil, pure, Except.pure] at h
    rcases hm with ⟨rfl, rfl⟩ | ⟨rfl, rfl⟩ | ⟨rfl, rfl⟩
    · cases hv : sp.pchip (k.map (·.1)) (k.map (·.2)) T with
      | none => simp [hv, ofScipy] at h
      | some v => simp [hv, ofScipy] at h; rw [h.2]
    · cases hv : sp.linear (k.map (·.1)) (k.map (·.2)) T with
      | none => simp [hv, ofScipy] at h
      | some v => simp [hv, ofScipy] at h; rw [h.2]
    · cases hv : sp.slinear (k.map (·.1)) (k.map (·.2)) T with
      | none => simp [hv, ofScipy] at h
      | some v => simp [hv, ofScipy] at h; rw [h.2]
  have hX : (k.map (·.1)).Pairwise (· < ·) := by rw [List.pairwise_map]; exact increasing
  have hlen := (ht _ _ _ _ hX (by simp) hv).1
  intro v hvq
  obtain ⟨j, hj, e⟩ := List.getElem_of_mem hvq
  have hjT : j < T.length := by omega
  have hτ := hcov _ (List.getElem_mem hjT)
  obtain ⟨i, hi, l, r⟩ := Scipy.exists_interval (Scipy.entry (k.map (·.1))) k.length (T[j]) (by omega)
    (by
      rw [Scipy.entry_eq _ _ (by simp; omega), List.getElem_map]
      rw [List.head?_eq_getElem?, List.getElem?_eq_getElem (by omega)] at hp
      injection hp with hp
      rw [hp]; exact hτ.1)
    (by
      rw [Scipy.entry_eq _ _ (by simp; omega), List.getElem_map]
      rw [List.getLast?_eq_getElem?, List.getElem?_eq_getElem (by omega)] at hq
      injection hq with hq
      rw [hq]; exact hτ.2)
  rw [Scipy.entry_eq _ _ (by simp; omega), List.getElem_map] at l r
  have := hf _ _ _ _ hX (by simp) hv i j k[i].1 k[i + 1].1 k[i].2 k[i + 1].2 T[j] v (by simp [show i < k.length by omega]) (by simp [hi])
    (by simp [show i < k.length by omega]) (by simp [hi]) (by simp [hjT]) l r (by rw [List.getElem?_eq_getElem hj, e])
  have m0 : k[i] ∈ k := List.getElem_mem (by omega)
  have m1 : k[i + 1] ∈ k := List.getElem_mem hi
  rcases le_total k[i].2 k[i + 1].2 with c | c
  · rw [min_eq_left c, max_eq_right c] at this
    exact ⟨_, _, m0, m1, this⟩
  · rw [min_eq_right c, max_eq_left c] at this
    exact ⟨_, _, m1, m0, this⟩

/-- C97: with `pchip`, `linear` or `slinear` envelopes no envelope leaves the range of the signal. -/
theorem C97_envelopes (sp : SciPy K) (kind : SplineKind) (f : Interp K) (hm : MadeBy sp kind f) (ht : PassesThrough f) (hf : NoOvershoot f)
    (nbsym : Int) (hnb : 1 ≤ nbsym) (S T : List K) (hT : T = (List.range S.length).map (fun k : Nat => (k : K))) (env : Envelopes K)
    (h : extractMaxMinSpline sp .simple kind nbsym T S = .ok (some env)) (v : K) (hv : v ∈ env.maxEnv ∨ v ∈ env.minEnv) :
    ∃ a b, a ∈ S ∧ b ∈ S ∧ a ≤ v ∧ v ≤ b := by
  have hT' : T = timeArr S.length := hT
  subst hT'
  have he' := findExtremaSimple_eq (timeArr S.length : List K) S (timeArr_length _)
  obtain ⟨e, he⟩ : ∃ e, findExtrema .simple (timeArr S.length : List K) S = .ok e := ⟨_, he'⟩
  unfold extractMaxMinSpline at h
  simp only [he, bind, Except.bind] at h
  by_cases h3 : e.maxPos.length + e.minPos.length < 3
  · rw [if_pos h3] at h; cases h
  rw [if_neg h3] at h
  obtain ⟨kmax, kmin, h1, g1, g2⟩ := C21_knots nbsym hnb S _ rfl e he (by omega)
  simp only [show preparePoints .simple nbsym (timeArr S.length) S e = _ from h1] at h
  cases hs1 : splinePoints sp kind (timeArr S.length) kmax with
  | error err => rw [hs1] at h; cases h
  | ok r1 =>
    obtain ⟨t1, q1⟩ := r1
    cases hs2 : splinePoints sp kind (timeArr S.length) kmin with
    | error err => rw [hs1, hs2] at h; cases h
    | ok r2 =>
      obtain ⟨t2, q2⟩ := r2
      rw [hs1] at h
      simp only [hs2, pure, Except.pure] at h
      injection h with h
      injection h with h
      subst h
      have a1 := splinePoints_between hm ht hf g1.three g1.increasing g1.covers hs1
      have a2 := splinePoints_between hm ht hf g2.three g2.increasing g2.covers hs2
      rcases hv with hv | hv
      · obtain ⟨a, b, ha, hb, l, r⟩ := a1 v hv
        exact ⟨_, _, g1.values _ ha, g1.values _ hb, l, r⟩
      · obtain ⟨a, b, ha, hb, l, r⟩ := a2 v hv
        exact ⟨_, _, g2.values _ ha, g2.values _ hb, l, r⟩

/-- C97: with `pchip`, `linear` or `slinear` envelopes one sifting step cannot blow a signal up: no value exceeds the range (largest minus smallest value)
of the signal sifted. -/
theorem C97_step (cfg : Cfg K) (hk : cfg.splineKind = .pchip ∨ cfg.splineKind = .linear ∨ cfg.splineKind = .slinear) (hd : cfg.detection = .simple)
    (hnb : 1 ≤ cfg.nbsym) (x T : List K) (hT : T = (List.range x.length).map (fun k : Nat => (k : K))) (y : List K) (m n : List (K × K))
    (h : siftOnce Scipy.scipy cfg T x = .ok (y, m, n)) (v : K) (hv : v ∈ y) : ∃ a b, a ∈ x ∧ b ∈ x ∧ |v| ≤ b - a := by
  obtain ⟨f, hm, ht, hf⟩ : ∃ f, MadeBy (Scipy.scipy : SciPy K) cfg.splineKind f ∧ PassesThrough f ∧ NoOvershoot f := by
    rcases hk with h | h | h
    · exact ⟨_, .inl ⟨h, rfl⟩, Scipy.C96_through.2.2.1, Scipy.pchip_no_overshoot⟩
    · exact ⟨_, .inr (.inl ⟨h, rfl⟩), Scipy.linear_through, Scipy.linear_no_overshoot⟩
    · exact ⟨_, .inr (.inr ⟨h, rfl⟩), Scipy.linear_through, Scipy.linear_no_overshoot⟩
  obtain ⟨env, he, hl, hy⟩ := siftOnce_spec h
  rw [hd] at he
  obtain ⟨i, hi, e⟩ := List.getElem_of_mem hv
  obtain ⟨xi, u, l, h1, h2, h3, h4⟩ := hy i (by omega)
  have hx0 : x ≠ [] := by rintro rfl; simp at h1
  obtain ⟨mn1, mn2⟩ := npMin_spec hx0
  obtain ⟨mx1, mx2⟩ := npMax_spec hx0
  refine ⟨npMin x, npMax x, mn1, mx1, ?_⟩
  have bmem : ∀ {q : List K} {w : K}, bget q i = some w → w ∈ q := by
    intro q w hw
    unfold bget at hw
    split at hw <;> exact List.mem_of_getElem? hw
  have hxi : xi ∈ x := List.mem_of_getElem? h1
  obtain ⟨a1, b1, c1, c2, c3, c4⟩ := C97_envelopes Scipy.scipy cfg.splineKind f hm ht hf cfg.nbsym hnb x T hT env he u (.inl (bmem h2))
  obtain ⟨a2, b2, d1, d2, d3, d4⟩ := C97_envelopes Scipy.scipy cfg.splineKind f hm ht hf cfg.nbsym hnb x T hT env he l (.inr (bmem h3))
  rw [List.getElem?_eq_getElem hi, e] at h4
  injection h4 with h4
  have hlit : (lit (1 / 2) : K) = 1 / 2 := by rw [lit_eq]; norm_num
  rw [h4, hlit, abs_le]
  have := mn2 _ c1
  have := mn2 _ d1
  have := mx2 _ c2
  have := mx2 _ d2
  have := mn2 _ hxi
  have := mx2 _ hxi
  constructor <;> linarith

/-- The hypotheses are satisfiable: one sifting step on `sampleS` (range 7) with `pchip`. -/
example : okWith (fun r : List ℚ × List (ℚ × ℚ) × List (ℚ × ℚ) => r.1.all (fun v => decide (|v| ≤ 7)) && decide (r.1[1]? ≠ some 3))
    (siftOnce Scipy.scipy { Cfg.default with splineKind := .pchip } (timeArr 10) sampleS) = true := by decide +kernel

end EMD
end PyEMD
