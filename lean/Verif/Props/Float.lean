import Verif.Spec.Float
import Verif.Spec.Interp
import Verif.Spec.Samples
import Verif.Props.EmdLoop
import Verif.Props.Eemd
import Verif.Props.Ceemdan
import Mathlib.Algebra.Order.Floor.Ring
import Mathlib.Algebra.Order.Round
import Mathlib.Data.Int.Log
import Mathlib.Tactic.Linarith
import Mathlib.Tactic.Ring

/-!
# Rounding errors (C95)
-/

set_option linter.unusedSectionVars false

namespace PyEMD

variable {α ρ : Type} [Add α] [Sub α] [Mul α] [Div α] [Neg α] [LT α] [LE α] [BEq α] [DecidableLT α] [DecidableLE α] [NpScalar α]

theorem abs_sum_le {β : Type} (l : List β) (f : β → ℝ) : |(l.map f).sum| ≤ (l.map (fun x => |f x|)).sum := by
  induction l with
  | nil => simp
  | cons a l ih =>
    simp only [List.map_cons, List.sum_cons]
    exact (abs_add_le _ _).trans (add_le_add_right ih _)

namespace FloatArith

/-- Error of a sum computed from left to right. -/
theorem foldl_err (F : FloatArith α) : ∀ (xs : List α) (s : α), F.finite (xs.foldl (· + ·) s) →
    F.finite s ∧ (∀ x ∈ xs, F.finite x) ∧
      |F.val (xs.foldl (· + ·) s) - (F.val s + (xs.map F.val).sum)| ≤
        ((1 + F.u) ^ xs.length - 1) * (|F.val s| + (xs.map (fun x => |F.val x|)).sum) := by
  intro xs
  induction xs with
  | nil => intro s h; exact ⟨h, by simp, by simp⟩
  | cons x xs ih =>
    intro s h
    rw [List.foldl_cons] at h
    obtain ⟨h1, h2, h3⟩ := ih (s + x) h
    obtain ⟨h4, h5, h6⟩ := F.add s x h1
    refine ⟨h4, by simpa using ⟨h5, h2⟩, ?_⟩
    simp only [List.foldl_cons, List.map_cons, List.sum_cons, List.length_cons]
    have hu := F.u_nonneg
    have hB : 0 ≤ (xs.map (fun x => |F.val x|)).sum := List.sum_nonneg (by simp)
    have hA := abs_add_le (F.val s) (F.val x)
    have hp : (1 : ℝ) ≤ (1 + F.u) ^ xs.length := one_le_pow₀ (by linarith)
    have h7 : |F.val (s + x)| ≤ (1 + F.u) * (|F.val s| + |F.val x|) := by
      have := abs_sub_abs_le_abs_sub (F.val (s + x)) (F.val s + F.val x)
      have := mul_le_mul_of_nonneg_left hA hu
      nlinarith [abs_nonneg (F.val s + F.val x)]
    have h8 : |F.val (s + x) - (F.val s + F.val x)| ≤ F.u * (|F.val s| + |F.val x|) := h6.trans (mul_le_mul_of_nonneg_left hA hu)
    have h9 := abs_sub_le (F.val (xs.foldl (· + ·) (s + x))) (F.val (s + x) + (xs.map F.val).sum)
      (F.val s + (F.val x + (xs.map F.val).sum))
    have h10 : F.val (s + x) + (xs.map F.val).sum - (F.val s + (F.val x + (xs.map F.val).sum)) = F.val (s + x) - (F.val s + F.val x) := by ring
    rw [h10] at h9
    have h11 := mul_le_mul_of_nonneg_left (add_le_add_left h7 ((xs.map (fun x => |F.val x|)).sum)) (sub_nonneg.2 hp)
    have h12 : 0 ≤ F.u * (1 + F.u) ^ xs.length * (xs.map (fun x => |F.val x|)).sum := by positivity
    rw [pow_succ]
    nlinarith

/-- The values of column `i` of the rows. -/
def column (F : FloatArith α) (rows : List (List α)) (i : Nat) : List ℝ := rows.map (fun r => F.val (r.getD i (lit 0)))

/-- The bound on the rounding errors at one sample: `s` is the sample, `xs` the values of the components. -/
def slack (F : FloatArith α) (s : ℝ) (xs : List ℝ) : ℝ := F.u * |s| + ((1 + F.u) ^ (xs.length + 1) - 1) * (xs.map (fun x => |x|)).sum

theorem residue_err (F : FloatArith α) {S : List α} {rows : List (List α)} {res : List α} (h : EMD.Spec.IsResidue S rows res)
    (hf : ∀ x ∈ res, F.finite x) (i : Nat) (hi : i < S.length) :
    |F.val S[i] - ((F.column rows i).sum + F.val (res.getD i (lit 0)))| ≤ F.slack (F.val S[i]) (F.column rows i) := by
  obtain ⟨s, hs, hr⟩ := h.2 i hi
  rw [List.getElem?_eq_getElem hi, Option.some.injEq] at hs
  subst hs
  have hr' : res.getD i (lit 0) = S[i] - EMD.Spec.colSum rows i := by
    rw [List.getD_eq_getElem?_getD, hr]; rfl
  obtain ⟨-, h1, h2⟩ := F.sub _ _ (hf _ (List.mem_of_getElem? hr))
  unfold EMD.Spec.colSum at h1 h2 hr'
  obtain ⟨-, -, h3⟩ := F.foldl_err _ _ h1
  rw [F.zero.2] at h3
  simp only [List.map_map, List.length_map, zero_add, abs_zero, Function.comp_def] at h3
  rw [hr']
  unfold slack column
  simp only [List.map_map, List.length_map, Function.comp_def]
  generalize F.val (List.foldl (fun x1 x2 => x1 + x2) (lit 0) (rows.map (fun r => r.getD i (lit 0)))) = c at *
  generalize F.val (S[i] - List.foldl (fun x1 x2 => x1 + x2) (lit 0) (rows.map (fun r => r.getD i (lit 0)))) = r at *
  generalize F.val S[i] = s at *
  have hB : 0 ≤ (rows.map (fun r => |F.val (r.getD i (lit 0))|)).sum := List.sum_nonneg (by simp)
  have hX : |(rows.map (fun r => F.val (r.getD i (lit 0)))).sum| ≤ (rows.map (fun r => |F.val (r.getD i (lit 0))|)).sum := abs_sum_le rows _
  generalize (rows.map (fun r => F.val (r.getD i (lit 0)))).sum = X at *
  generalize (rows.map (fun r => |F.val (r.getD i (lit 0))|)).sum = B at *
  have hu := F.u_nonneg
  have hp : (1 : ℝ) ≤ (1 + F.u) ^ rows.length := one_le_pow₀ (by linarith)
  have hc : |c| ≤ (1 + F.u) ^ rows.length * B := by
    have := abs_sub_abs_le_abs_sub c X
    nlinarith
  have h4 : |s - c| ≤ |s| + |c| := abs_sub s c
  have h5 := abs_sub_le s (c + r) (X + r)
  rw [show s - (c + r) = -(r - (s - c)) by ring, abs_neg, show c + r - (X + r) = c - X by ring] at h5
  have h6 := mul_le_mul_of_nonneg_left (h4.trans (add_le_add_right hc _)) hu
  rw [pow_succ]
  nlinarith

theorem abs_le_of_vanishes (F : FloatArith α) {x : α} (hx : F.finite x) (h : pyAbs x ≤ lit (1 / 100000000)) :
    |F.val x| ≤ (1 + F.u) / 100000000 + F.eta := by
  obtain ⟨h1, h2⟩ := F.lit_near (1 / 100000000) (by rw [abs_of_pos] <;> norm_num)
  have h3 : F.val (lit (1 / 100000000) : α) ≤ (1 + F.u) / 100000000 + F.eta := by
    have := (abs_sub_le_iff.1 h2).1
    rw [abs_of_pos (by norm_num)] at this
    push_cast at this
    linarith
  unfold pyAbs at h
  split at h
  · next hneg =>
    rw [F.lt_iff _ _ hx F.zero.1, F.zero.2] at hneg
    rw [F.le_iff _ _ (F.neg x hx).1 h1, (F.neg x hx).2] at h
    rw [abs_of_neg hneg]
    linarith
  · next hpos =>
    rw [F.lt_iff _ _ hx F.zero.1, F.zero.2, not_lt] at hpos
    rw [F.le_iff _ _ hx h1] at h
    rw [abs_of_nonneg hpos]
    linarith

end FloatArith

/-- C95 (EMD): in floating point arithmetic the components and the residue reported by `get_imfs_and_residue` add up, at every sample, to
the signal up to the rounding errors of one subtraction and as many additions as there are components; the rows returned by `emd` add up
up to the same errors and, if the residue was found negligible, the tolerance `1e-8` on top.  The only assumption on the run is that
the residue is finite. -/
theorem C95_emd (F : FloatArith α) (fuel : Nat) (sp : SciPy α) (o o' : EMD.Obj α) (S : List α) (T : Option (List α)) (m : Int)
    (rows : List (List α)) (h : o.emd fuel sp S T m = (.ok rows, o')) :
    ∃ imfs res, o'.getImfsAndResidue = .ok (imfs, res) ∧ ((∀ x ∈ res, F.finite x) → ∀ i (hi : i < S.length),
      |F.val S[i] - ((F.column imfs i).sum + F.val (res.getD i (lit 0)))| ≤ F.slack (F.val S[i]) (F.column imfs i) ∧
      |F.val S[i] - (F.column rows i).sum| ≤ F.slack (F.val S[i]) (F.column imfs i) + ((1 + F.u) / 100000000 + F.eta) ∧
      (rows.length = imfs.length + 1 → |F.val S[i] - (F.column rows i).sum| ≤ F.slack (F.val S[i]) (F.column imfs i))) := by
  obtain ⟨imfs, res, h1, h2, h3⟩ := EMD.C03_rows_vs_stored fuel sp o o' S T m rows h
  refine ⟨imfs, res, h1, fun hf i hi => ?_⟩
  have h4 := F.residue_err h2 hf i hi
  have htol : 0 ≤ (1 + F.u) / 100000000 + F.eta := by
    have := F.u_nonneg
    have := F.eta_nonneg
    positivity
  rcases h3 with ⟨hv, rfl⟩ | ⟨-, rfl⟩
  · refine ⟨h4, ?_, fun h => by omega⟩
    have hmem : res.getD i (lit 0) ∈ res := by
      rw [List.getD_eq_getElem?_getD, List.getElem?_eq_getElem (by rw [h2.1]; exact hi)]
      exact List.getElem_mem _
    have h5 := F.abs_le_of_vanishes (hf _ hmem) (hv _ hmem)
    have h6 := abs_sub_le (F.val S[i]) ((F.column rows i).sum + F.val (res.getD i (lit 0))) (F.column rows i).sum
    rw [add_sub_cancel_left] at h6
    linarith
  · have h5 : (F.column (imfs ++ [res]) i).sum = (F.column imfs i).sum + F.val (res.getD i (lit 0)) := by simp [FloatArith.column]
    rw [h5]
    exact ⟨h4, by linarith, fun _ => h4⟩

/-- C95 (EEMD): likewise for the components and the residue of an ensemble. -/
theorem C95_eemd (F : FloatArith α) (rng : Rng α ρ) (hs : EEMD.Spec.Sized rng) (fuel : Nat) (sp : SciPy α) (sched : List Nat)
    (o o' : EEMD.Obj α ρ) (S : List α) (T : Option (List α)) (m : Int) (E : List (List α))
    (hord : o.cfg.parallel = true → EEMD.Spec.Schedule o.cfg.trials o.cfg.processes sched)
    (h : o.eemd rng fuel sp sched S T m = (.ok E, o')) :
    ∃ res, o'.getImfsAndResidue = .ok (E, res) ∧ ((∀ x ∈ res, F.finite x) → ∀ i (hi : i < S.length),
      |F.val S[i] - ((F.column E i).sum + F.val (res.getD i (lit 0)))| ≤ F.slack (F.val S[i]) (F.column E i)) := by
  obtain ⟨res, h1, h2⟩ := EEMD.C34_residue rng fuel sp sched o o' S T m E hs hord h
  exact ⟨res, h1, fun hf i hi => F.residue_err h2 hf i hi⟩

/-! ### CEEMDAN -/

namespace CEEMDAN
open EEMD.Spec (Sized Schedule)

theorem length_sumRows_div (n t : Nat) (rs : List (List α)) (h : ∀ r ∈ rs, r.length = n) :
    (sumRows n (rs.map (fun r => vdiv r (lit (t : ℚ))))).length = n := by
  apply length_sumRows
  intro r hr
  obtain ⟨r', hr', rfl⟩ := List.mem_map.1 hr
  rw [vdiv, List.length_map, h r' hr']

theorem length_stageTrial {fuel : Nat} {sp : SciPy α} {ecfg : EMD.Cfg α} {prev : List α} {T : Option (List α)} {b : α} {k : Nat}
    {imfs : List (List α)} {x : List α} (hn : ∀ r ∈ imfs, r.length = prev.length)
    (h : stageTrial fuel sp ecfg prev T b k imfs = .ok x) : x.length = prev.length := by
  unfold stageTrial at h
  dsimp only at h
  split at h
  · cases h
  next rows hrows =>
    split at h
    · cases h
    next r hr =>
      injection h with h
      subst h
      rw [(emd_ok hrows).2 r (List.mem_of_getLast? hr)]
      cases hk : imfs[k]? with
      | none => rfl
      | some y => simp [vscale, hn y (List.mem_of_getElem? hk)]

theorem length_localMean {std : List α → α} {fuel : Nat} {sp : SciPy α} {cfg : Cfg α} {ecfg : EMD.Cfg α}
    {noiseEMD : List (List (List α))} {prev : List α} {T : Option (List α)} {k : Nat} {L : List α}
    (hn : ∀ imfs ∈ noiseEMD, ∀ r ∈ imfs, r.length = prev.length)
    (h : localMean std fuel sp cfg ecfg noiseEMD prev T k = .ok L) : L.length = prev.length := by
  unfold localMean at h
  dsimp only at h
  split at h
  · cases h
  next rs hrs =>
    injection h with h
    rw [mapE_ok] at hrs
    rw [← h]
    apply length_sumRows_div
    intro r hr
    obtain ⟨imfs, himfs, hx⟩ := mem_of_forall₂ hrs hr
    exact length_stageTrial (hn imfs (List.mem_of_mem_take himfs)) hx

theorem stages_rows {std : List α → α} {fuel : Nat} {sp : SciPy α} {cfg : Cfg α} {ecfg : EMD.Cfg α} {noiseEMD : List (List (List α))}
    {S : List α} {T : Option (List α)} {m : Int} (hn : ∀ imfs ∈ noiseEMD, ∀ r ∈ imfs, r.length = S.length) (fuelS : Nat)
    {cimfs c : List (List α)} {prev : List α} (hc : ∀ r ∈ cimfs, r.length = S.length) (hp : prev.length = S.length)
    (h : stages std fuel sp cfg ecfg noiseEMD S T m fuelS cimfs prev = .ok c) : ∀ r ∈ c, r.length = S.length := by
  induction fuelS generalizing cimfs prev with
  | zero =>
    unfold stages at h
    injection h with h
    subst h
    exact hc
  | succ fuelS ih =>
    unfold stages at h
    split at h
    · cases h
    · injection h with h
      subst h
      exact hc
    · split at h
      · cases h
      next lm hlm =>
        have hl : lm.length = S.length := by rw [length_localMean (by rw [hp]; exact hn) hlm, hp]
        refine ih ?_ hl h
        intro r hr
        rcases List.mem_append.1 hr with hr | hr
        · exact hc r hr
        · rw [List.mem_singleton.1 hr, length_vsub, hp, hl, Nat.min_self]

theorem head_accumulate (n : Nat) (rs : List (List (List α))) (hl : ∀ rows ∈ rs, ∀ r ∈ rows, r.length = n) (e : List α)
    (he : e.length = n) (E : List (List α)) : ∃ e' E', rs.foldl (accumulate n) (e :: E) = e' :: E' ∧ e'.length = n := by
  induction rs generalizing e E with
  | nil => exact ⟨e, E, rfl, he⟩
  | cons r rs ih =>
    obtain ⟨E', h⟩ := length_accumulate n e E r
    rw [List.foldl_cons, h]
    refine ih (fun x hx => hl x (by simp [hx])) _ ?_ E'
    cases r with
    | nil => exact he
    | cons i r =>
      have hi : i.length = n := hl (i :: r) (by simp) i (by simp)
      simp only
      rw [length_vadd, he, hi, Nat.min_self]

/-- Every component has the length of the signal, whatever the arithmetic. -/
theorem body_rows {std : List α → α} {fuel : Nat} {sp : SciPy α} {cfg : Cfg α} {ecfg : EMD.Cfg α} {noiseEMD : List (List (List α))}
    {order : List Nat} {S : List α} {T : Option (List α)} {m : Int} {c : List (List α)}
    (hn : ∀ imfs ∈ noiseEMD, ∀ r ∈ imfs, r.length = S.length)
    (h : body std fuel sp cfg ecfg noiseEMD order S T m = .ok c) : ∀ r ∈ c, r.length = S.length := by
  unfold body at h
  split at h
  · cases h
  next E hE =>
    split at h
    · cases h
    next first rest =>
      have hfirst : first.length = S.length := by
        unfold eemd at hE
        dsimp only at hE
        split at hE
        · cases hE
        next rs hrs =>
          split at hE
          · cases hE
          · injection hE with hE
            rw [mapE_ok] at hrs
            have hl : ∀ rows ∈ rs, ∀ r ∈ rows, r.length = S.length := by
              intro rows hrows
              obtain ⟨t, -, htr⟩ := mem_of_forall₂ hrs hrows
              obtain ⟨imfs, i, h1, h2, h3⟩ := trialUpdate_ok htr
              have hi : i.length = S.length := hn imfs (List.mem_of_getElem? h1) i (List.mem_of_mem_head? h2)
              have := (emd_ok h3).2
              simpa [vscale, hi] using this
            obtain ⟨e', E', h1, h2⟩ := head_accumulate S.length rs hl (vzeros S.length) (by simp) []
            rw [h1, List.map_cons, List.cons.injEq] at hE
            rw [← hE.1, vdiv, List.length_map, h2]
      split at h
      · cases h
      next cimfs hst =>
        injection h with h
        have hc := stages_rows hn _ (cimfs := [first]) (by simpa using hfirst) (by rw [length_vsub, hfirst, Nat.min_self]) hst
        subst h
        intro r hr
        rcases List.mem_append.1 hr with hr | hr
        · exact hc r hr
        · rw [List.mem_singleton.1 hr, length_vsub, length_sumRows _ _ hc, Nat.min_self]

end CEEMDAN

/-- Dividing by the standard deviation and multiplying by it again does not give back the number exactly. -/
theorem FloatArith.rescale_err (F : FloatArith α) (s c : α) (h : F.finite (s / c * c)) :
    |F.val (s / c * c) - F.val s| ≤ (2 * F.u + F.u ^ 2) * |F.val s| + F.eta * (1 + (1 + F.u) * |F.val c|) := by
  obtain ⟨h1, h2, h3⟩ := F.mul _ _ h
  obtain ⟨-, h4, h5⟩ := F.div _ _ h1 h2
  have hu := F.u_nonneg
  generalize F.val (s / c * c) = w at *
  generalize F.val (s / c) = q at *
  generalize F.val s = a at *
  generalize F.val c = b at *
  have h6 : |q * b - a| ≤ F.u * |a| + F.eta * |b| := by
    have : q * b - a = (q - a / b) * b := by field_simp
    rw [this, abs_mul]
    have h7 := mul_le_mul_of_nonneg_right h5 (abs_nonneg b)
    have h8 : |a / b| * |b| = |a| := by rw [← abs_mul, div_mul_cancel₀ _ h4]
    nlinarith
  have h7 : |q * b| ≤ |a| + (F.u * |a| + F.eta * |b|) := by
    have := abs_sub_abs_le_abs_sub (q * b) a
    linarith
  have h8 := abs_sub_le w (q * b) a
  have h9 := mul_le_mul_of_nonneg_left h7 hu
  nlinarith

open CEEMDAN (vdiv vscale) in
/-- C95 (CEEMDAN): likewise; the division of the signal by its standard deviation and the later multiplication add their own errors. -/
theorem C95_ceemdan (F : FloatArith α) (rng : Rng α ρ) (hs : EEMD.Spec.Sized rng) (std : List α → α) (fuel : Nat) (sp : SciPy α)
    (orderN orderT : List Nat) (o o' : CEEMDAN.Obj α ρ) (S : List α) (T : Option (List α)) (m : Int) (C : List (List α))
    (hN : o.cfg.parallel = true → EEMD.Spec.Schedule o.cfg.trials o.cfg.processes orderN)
    (h : o.ceemdan rng std fuel sp orderN orderT S T m = (.ok C, o')) :
    ∃ res, o'.getImfsAndResidue = .ok (C, res) ∧ ((∀ x ∈ res, F.finite x) → ∀ i (hi : i < S.length),
      |F.val S[i] - ((F.column C i).sum + F.val (res.getD i (lit 0)))| ≤ F.slack (F.val S[i]) (F.column C i) +
        (1 + F.u) * ((2 * F.u + F.u ^ 2) * |F.val S[i]| + F.eta * (1 + (1 + F.u) * |F.val (std S)|))) := by
  obtain ⟨x, noiseEMD, cimfs, hstd, hx, hd, hb, hC, ho'⟩ := CEEMDAN.Obj.ceemdan_ok h
  have hlen : (vdiv S (std S)).length = S.length := by simp [vdiv]
  rw [hlen] at hx ho'
  obtain ⟨flat, hdraw, rfl⟩ := CEEMDAN.noises_ok hx
  have hxl := CEEMDAN.length_reshape S.length o.cfg.trials flat
  have hxr := CEEMDAN.reshape_rows S.length o.cfg.trials flat (CEEMDAN.draw_length hs hdraw)
  have hnoise := CEEMDAN.decomposeNoise_ok hxl hN hd
  have hCl : ∀ r ∈ C, r.length = S.length := by
    rw [hC]
    intro r hr
    obtain ⟨r', hr', rfl⟩ := List.mem_map.1 hr
    rw [vscale, List.length_map, CEEMDAN.body_rows ?_ hb r' hr', hlen]
    intro imfs himfs r hr
    obtain ⟨y, hy, hyi⟩ := CEEMDAN.mem_of_forall₂ hnoise himfs
    rw [CEEMDAN.NoiseImfs.lengths hyi r hr, hxr y hy, hlen]
  have hl2 : (vscale (std S) (vdiv S (std S))).length = S.length := by simp [vscale, vdiv]
  refine ⟨vsub (vscale (std S) (vdiv S (std S))) (sumRows S.length C), by rw [ho']; rfl, fun hf i hi => ?_⟩
  have hres : EMD.Spec.IsResidue (vscale (std S) (vdiv S (std S))) C (vsub (vscale (std S) (vdiv S (std S))) (sumRows S.length C)) := by
    rw [← hl2]; exact EMD.isResidue_vsub _ _ (by rw [hl2]; exact hCl)
  have h1 := F.residue_err hres hf i (by rw [hl2]; exact hi)
  obtain ⟨s, hs1, hs2⟩ := hres.2 i (by rw [hl2]; exact hi)
  have hw : s = S[i] / std S * std S := by
    rw [List.getElem?_eq_getElem (by rw [hl2]; exact hi), Option.some.injEq] at hs1
    rw [← hs1]; simp [vscale, vdiv]
  have hget : (vscale (std S) (vdiv S (std S)))[i]'(by rw [hl2]; exact hi) = S[i] / std S * std S := by simp [vscale, vdiv]
  have hfin : F.finite (S[i] / std S * std S) := by
    rw [← hw]; exact (F.sub _ _ (hf _ (List.mem_of_getElem? hs2))).1
  rw [hget] at h1
  have h2 := F.rescale_err _ _ hfin
  have hu := F.u_nonneg
  unfold FloatArith.slack at *
  generalize F.val (S[i] / std S * std S) = w at *
  generalize (F.column C i).sum + F.val ((vsub (vscale (std S) (vdiv S (std S))) (sumRows S.length C)).getD i (lit 0)) = t at *
  generalize (2 * F.u + F.u ^ 2) * |F.val S[i]| + F.eta * (1 + (1 + F.u) * |F.val (std S)|) = d at *
  generalize F.val S[i] = a at *
  have h3 := abs_sub_le a w t
  rw [abs_sub_comm a w] at h3
  have h4 : |w| ≤ |a| + d := by
    have := abs_sub_abs_le_abs_sub w a
    linarith
  have h5 := mul_le_mul_of_nonneg_left h4 hu
  nlinarith

/-! ### A floating point type -/

/-- Numbers with a significand of four bits and unlimited exponent, and (`fin = false`) results of a division by zero. -/
structure Toy where
  v : ℚ
  fin : Bool
  deriving DecidableEq

namespace Toy

/-- Rounding to four significant bits. -/
def rnd (x : ℚ) : ℚ := round (x / (2 : ℚ) ^ (Int.log 2 |x| - 3)) * (2 : ℚ) ^ (Int.log 2 |x| - 3)

theorem rnd_near (x : ℚ) : |rnd x - x| ≤ 1 / 16 * |x| := by
  unfold rnd
  by_cases hx : x = 0
  · simp [hx]
  have hpos : 0 < |x| := abs_pos.2 hx
  have hs : (0 : ℚ) < (2 : ℚ) ^ (Int.log 2 |x| - 3) := zpow_pos (by norm_num) _
  have h1 : (2 : ℚ) ^ (Int.log 2 |x|) ≤ |x| := by exact_mod_cast Int.zpow_log_le_self (by norm_num) hpos
  have h2 : (2 : ℚ) ^ (Int.log 2 |x|) = 8 * (2 : ℚ) ^ (Int.log 2 |x| - 3) := by
    rw [zpow_sub₀ (by norm_num)]; norm_num; ring
  generalize (2 : ℚ) ^ (Int.log 2 |x| - 3) = s at *
  have h3 := abs_sub_round (x / s)
  have h4 : (round (x / s) : ℚ) * s - x = -((x / s - round (x / s)) * s) := by field_simp; ring
  rw [h4, abs_neg, abs_mul, abs_of_pos hs]
  nlinarith

theorem rnd_zero : rnd 0 = 0 := by simp [rnd]

instance : Add Toy := ⟨fun a b => ⟨rnd (a.v + b.v), a.fin && b.fin⟩⟩
instance : Sub Toy := ⟨fun a b => ⟨rnd (a.v - b.v), a.fin && b.fin⟩⟩
instance : Mul Toy := ⟨fun a b => ⟨rnd (a.v * b.v), a.fin && b.fin⟩⟩
instance : Div Toy := ⟨fun a b => ⟨rnd (a.v / b.v), a.fin && b.fin && b.v != 0⟩⟩
instance : Neg Toy := ⟨fun a => ⟨-a.v, a.fin⟩⟩
instance : LT Toy := ⟨fun a b => a.fin = true ∧ b.fin = true ∧ a.v < b.v⟩
instance : LE Toy := ⟨fun a b => a.fin = true ∧ b.fin = true ∧ a.v ≤ b.v⟩
instance : BEq Toy := ⟨fun a b => a.fin && b.fin && a.v == b.v⟩
instance : DecidableLT Toy := fun a b => inferInstanceAs (Decidable (_ ∧ _ ∧ _))
instance : DecidableLE Toy := fun a b => inferInstanceAs (Decidable (_ ∧ _ ∧ _))
instance : NpScalar Toy where
  lit q := ⟨rnd q, true⟩
  toInt x := toInt x.v
  npSum l := l.foldl (· + ·) ⟨0, true⟩
  npMax l := ⟨npMax (l.map (·.v)), l.all (·.fin)⟩
  npMin l := ⟨npMin (l.map (·.v)), l.all (·.fin)⟩

theorem near_cast {x y : ℚ} (h : |x - y| ≤ 1 / 16 * |y|) : |(x : ℝ) - (y : ℝ)| ≤ 1 / 16 * |(y : ℝ)| := by
  have h' : ((|x - y| : ℚ) : ℝ) ≤ ((1 / 16 * |y| : ℚ) : ℝ) := by exact_mod_cast h
  push_cast at h'
  exact h'

/-- The four-bit numbers have the properties of floating point arithmetic with `u = 1/16`. -/
noncomputable def arith : FloatArith Toy where
  finite a := a.fin = true
  val a := (a.v : ℝ)
  u := 1 / 16
  eta := 0
  u_nonneg := by norm_num
  eta_nonneg := le_rfl
  zero := ⟨rfl, by show ((rnd 0 : ℚ) : ℝ) = 0; rw [rnd_zero]; simp⟩
  lit_near q _ := ⟨rfl, by rw [add_zero]; exact near_cast (rnd_near q)⟩
  neg a h := ⟨h, by show ((-a.v : ℚ) : ℝ) = _; push_cast; rfl⟩
  lt_iff a b ha hb := by show (_ ∧ _ ∧ a.v < b.v) ↔ _; simp only [ha, hb, true_and]; exact_mod_cast Iff.rfl
  le_iff a b ha hb := by show (_ ∧ _ ∧ a.v ≤ b.v) ↔ _; simp only [ha, hb, true_and]; exact_mod_cast Iff.rfl
  add a b h := by
    obtain ⟨h1, h2⟩ := Bool.and_eq_true_iff.1 h
    have := near_cast (rnd_near (a.v + b.v)); push_cast at this; exact ⟨h1, h2, this⟩
  sub a b h := by
    obtain ⟨h1, h2⟩ := Bool.and_eq_true_iff.1 h
    have := near_cast (rnd_near (a.v - b.v)); push_cast at this; exact ⟨h1, h2, this⟩
  mul a b h := by
    obtain ⟨h1, h2⟩ := Bool.and_eq_true_iff.1 h
    have := near_cast (rnd_near (a.v * b.v)); push_cast at this; rw [add_zero]; exact ⟨h1, h2, this⟩
  div a b h _ := by
    obtain ⟨h1, h2⟩ := Bool.and_eq_true_iff.1 h
    obtain ⟨h1, h3⟩ := Bool.and_eq_true_iff.1 h1
    have := near_cast (rnd_near (a.v / b.v)); push_cast at this; rw [add_zero]
    exact ⟨h1, by exact_mod_cast (bne_iff_ne.1 h2), this⟩

def sampleS : List Toy := ([0, 3, -1, 2, -2, 5, 1, 4, 0, 1] : List ℚ).map (fun q => ⟨q, true⟩)

/-- A decomposition with four-bit numbers: two components and a residue, all of them finite; at sample 1 they add up to 23/8 and not to 3. -/
example : okWith (fun r => r.rows.length == 3 && r.imfs.length == 2 && r.residue.all (fun x : Toy => x.fin) &&
      (r.rows.map (fun x : List Toy => (x.getD 1 (lit 0)).v)).sum == 23 / 8)
    (EMD.emdPure 20 linSciPy { EMD.Cfg.default with FIXE := 1 } sampleS none 2) = true := by decide +kernel

/-- A generator of four-bit numbers. -/
def toyRng : Rng Toy Nat where
  normal r s n := ((List.range n).map (fun k => lit ((((r + k) * 7) % 5 : ℕ) - 2 : ℚ) * s), r + n)
  uniform r a b n := ((List.range n).map (fun k => a + (b - a) * lit ((((r + k) * 7) % 5 : ℕ) / 4 : ℚ)), r + n)
  seed z := z.toNat

example : EEMD.Spec.Sized toyRng := ⟨fun r s n => by simp [toyRng], fun r a b n => by simp [toyRng]⟩

/-- Two trials with little noise. -/
def toyCfg : CEEMDAN.Cfg Toy :=
  { trials := 2, epsilon := lit (1 / 16), noiseScale := lit 1, rangeThr := lit (1 / 100), totalPowerThr := lit (1 / 20),
    betaProgress := false, noiseKind := .normal, maxStages := 100, parallel := false, processes := 1 }

/-- A decomposition by CEEMDAN with four-bit numbers succeeds with a finite residue that is not zero. -/
example : (fun p : PyM (List (List Toy)) × CEEMDAN.Obj Toy Nat =>
      okWith (fun C => C.length == 3) p.1 && (p.2.residue.getD []).all (fun x => x.fin) && (p.2.residue.getD []).any (fun x => x.v != 0) &&
      (p.2.residue.getD []).length == 10)
    ((CEEMDAN.Obj.new toyCfg { EMD.Cfg.default with FIXE := 1 } 1).ceemdan toyRng (fun _ => lit 3) 20 linSciPy [] [] sampleS none (-1)) = true := by decide +kernel

end Toy
end PyEMD
