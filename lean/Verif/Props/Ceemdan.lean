import Verif.Lemmas.Ceemdan
import Mathlib.Data.List.Perm.Basic

/-!
# C39 – C43: `CEEMDAN`
-/

set_option linter.unusedSectionVars false

namespace PyEMD
namespace CEEMDAN
open Spec
open EEMD.Spec (IsMean TimeFor Draw Sized Schedule)

/-- A rational stand-in for `np.std` used in the `example`s: the range. -/
def sampleStd (l : List ℚ) : ℚ := npMax l - npMin l

/-- Configuration with three trials. -/
def sampleCfg : Cfg ℚ :=
  { trials := 3, epsilon := 1 / 20, noiseScale := 1, rangeThr := 1 / 100, totalPowerThr := 5 / 100, betaProgress := true,
    noiseKind := .normal, maxStages := 100, parallel := false, processes := 1 }

/-- An object that has not been used. -/
def sampleObj (cfg : Cfg ℚ) : Obj ℚ Nat := Obj.new cfg EMD.sampleFixe 1

section LawFree

variable {α ρ : Type} [Add α] [Sub α] [Mul α] [Div α] [Neg α] [LT α] [LE α] [BEq α]
  [DecidableLT α] [DecidableLE α] [NpScalar α]

/-- What a successful call did. -/
theorem Obj.ceemdan_ok {rng : Rng α ρ} {std : List α → α} {fuel : Nat} {sp : SciPy α} {orderN orderT : List Nat} {o o' : Obj α ρ}
    {S : List α} {T : Option (List α)} {m : Int} {C : List (List α)}
    (h : o.ceemdan rng std fuel sp orderN orderT S T m = (.ok C, o')) :
    ∃ x noiseEMD cimfs, (std S == lit 0) = false ∧ noises rng o.cfg o.random (vdiv S (std S)).length = (.ok x, o'.random) ∧
      decomposeNoise std fuel sp o.cfg o.emd orderN x = .ok noiseEMD ∧
      body std fuel sp o.cfg o.emd noiseEMD orderT (vdiv S (std S)) T m = .ok cimfs ∧
      C = cimfs.map (vscale (std S)) ∧
      o' = { o with random := o'.random, allNoises := x, allNoiseEMD := [], C_IMF := some C,
                    residue := some (vsub (vscale (std S) (vdiv S (std S))) (sumRows (vdiv S (std S)).length C)) } := by
  unfold Obj.ceemdan at h
  dsimp only at h
  split at h
  · simp at h
  next hstd =>
    split at h
    · simp at h
    next x r hx =>
      split at h
      · simp at h
      next noiseEMD hne =>
        split at h
        · simp at h
        next cimfs hb =>
          simp only [Prod.mk.injEq, Except.ok.injEq] at h
          obtain ⟨rfl, rfl⟩ := h
          exact ⟨x, noiseEMD, cimfs, by simpa using hstd, hx, hne, hb, rfl, rfl⟩

theorem stages_length {std : List α → α} {fuel : Nat} {sp : SciPy α} {cfg : Cfg α} {ecfg : EMD.Cfg α} {noiseEMD : List (List (List α))}
    {S : List α} {T : Option (List α)} {m : Int} (fuelS : Nat) {cimfs c : List (List α)} {prev : List α}
    (h : stages std fuel sp cfg ecfg noiseEMD S T m fuelS cimfs prev = .ok c) :
    cimfs.length ≤ c.length ∧ c.length ≤ cimfs.length + fuelS ∧ (0 < m → (c.length : Int) ≤ max (cimfs.length : Int) m) := by
  induction fuelS generalizing cimfs prev with
  | zero =>
    unfold stages at h
    injection h with h
    subst h
    exact ⟨le_refl _, by omega, fun _ => le_max_left _ _⟩
  | succ fuelS ih =>
    unfold stages at h
    split at h
    · cases h
    · injection h with h
      subst h
      exact ⟨le_refl _, by omega, fun _ => le_max_left _ _⟩
    next hend =>
      split at h
      · cases h
      next lm hlm =>
        obtain ⟨h1, h2, h3⟩ := ih h
        rw [List.length_append, List.length_singleton] at h1 h2 h3
        refine ⟨by omega, by omega, fun hm0 => ?_⟩
        have := h3 hm0
        have hlt : (cimfs.length : Int) < m := by
          by_contra hge
          unfold endCondition at hend
          rw [if_pos ⟨hm0, by omega⟩] at hend
          cases hend
        push_cast at this
        omega

/-- C40: with `max_imf = k ≥ 1` at most `k + 1` rows are returned; in any case at least 2 and at most `_max_imf + 2`, which is
102 for the value 100 set by the constructor.  The stage loop is a `for` loop over `range(_max_imf)`, so it ends by itself;
in the model it is structurally recursive.  Law-free. -/
theorem C40_max_imf (rng : Rng α ρ) (std : List α → α) (fuel : Nat) (sp : SciPy α) (orderN orderT : List Nat) (o o' : Obj α ρ)
    (S : List α) (T : Option (List α)) (m : Int) (C : List (List α))
    (h : o.ceemdan rng std fuel sp orderN orderT S T m = (.ok C, o')) :
    2 ≤ C.length ∧ C.length ≤ o.cfg.maxStages + 2 ∧ (1 ≤ m → (C.length : Int) ≤ m + 1) := by
  obtain ⟨x, noiseEMD, cimfs, -, -, -, hb, rfl, -⟩ := Obj.ceemdan_ok h
  unfold body at hb
  split at hb
  · cases hb
  · split at hb
    · cases hb
    · split at hb
      · cases hb
      next c hc =>
        injection hb with hb
        subst hb
        obtain ⟨h1, h2, h3⟩ := stages_length _ hc
        simp only [List.length_singleton, Nat.cast_one] at h1 h2 h3
        simp only [List.length_map, List.length_append, List.length_singleton]
        refine ⟨by omega, by omega, fun hm => ?_⟩
        have := h3 (by omega)
        rw [max_eq_right hm] at this
        push_cast
        omega

/-- Three rows without a limit; the limit `1` cuts them to two. -/
example : okWith (fun E => E.length == 3)
      ((sampleObj sampleCfg).ceemdan EEMD.sampleRng sampleStd 20 linSciPy [] [] EMD.sampleS none (-1)).1 = true ∧
    okWith (fun E => E.length == 2)
      ((sampleObj sampleCfg).ceemdan EEMD.sampleRng sampleStd 20 linSciPy [] [] EMD.sampleS none 1).1 = true := by
  decide +kernel

/-! ## C43 -/

/-- One operation of a user: `noise_seed(seed)` or `ceemdan(S, T, max_imf)` (with the completion orders of the pool). -/
inductive Op (α : Type) where
  | seed (s : Int)
  | ceemdan (fuel : Nat) (orderN orderT : List Nat) (S : List α) (T : Option (List α)) (m : Int)

/-- Perform one operation; the result of `ceemdan` is reported. -/
def Obj.step (rng : Rng α ρ) (std : List α → α) (sp : SciPy α) (o : Obj α ρ) : Op α → Option (PyM (List (List α))) × Obj α ρ
  | .seed s => (none, o.noiseSeed rng s)
  | .ceemdan fuel orderN orderT S T m =>
    let r := o.ceemdan rng std fuel sp orderN orderT S T m
    (some r.1, r.2)

/-- The object after a history of operations. -/
def Obj.run (rng : Rng α ρ) (std : List α → α) (sp : SciPy α) (o : Obj α ρ) : List (Op α) → Obj α ρ
  | [] => o
  | op :: ops => Obj.run rng std sp (o.step rng std sp op).2 ops

/-- The rows of the last successful `ceemdan` of a history. -/
def lastSuccess (rng : Rng α ρ) (std : List α → α) (sp : SciPy α) (o : Obj α ρ) : List (Op α) → Option (List α × List (List α)) →
    Option (List α × List (List α))
  | [], r => r
  | op :: ops, r =>
    lastSuccess rng std sp (o.step rng std sp op).2 ops
      (match op, (o.step rng std sp op).1 with
        | .ceemdan _ _ _ S _ _, some (.ok C) => some (S, C)
        | _, _ => r)

theorem Obj.ceemdan_error {rng : Rng α ρ} {std : List α → α} {fuel : Nat} {sp : SciPy α} {orderN orderT : List Nat} {o o' : Obj α ρ}
    {S : List α} {T : Option (List α)} {m : Int} {e : PyErr}
    (h : o.ceemdan rng std fuel sp orderN orderT S T m = (.error e, o')) :
    o'.cfg = o.cfg ∧ o'.emd = o.emd ∧ o'.C_IMF = o.C_IMF ∧ o'.residue = o.residue := by
  unfold Obj.ceemdan at h
  dsimp only at h
  split at h
  · simp only [Prod.mk.injEq] at h
    obtain ⟨-, rfl⟩ := h
    exact ⟨rfl, rfl, rfl, rfl⟩
  · split at h
    · simp only [Prod.mk.injEq] at h
      obtain ⟨-, rfl⟩ := h
      exact ⟨rfl, rfl, rfl, rfl⟩
    · split at h
      · simp only [Prod.mk.injEq] at h
        obtain ⟨-, rfl⟩ := h
        exact ⟨rfl, rfl, rfl, rfl⟩
      · split at h
        · simp only [Prod.mk.injEq] at h
          obtain ⟨-, rfl⟩ := h
          exact ⟨rfl, rfl, rfl, rfl⟩
        · simp at h

/-- C43, noise: once `ceemdan` has returned, the stored noise decompositions are gone, and `get_imfs_and_residue()` returns the
very rows of this call.  Law-free. -/
theorem C43_after_call (rng : Rng α ρ) (std : List α → α) (fuel : Nat) (sp : SciPy α) (orderN orderT : List Nat) (o o' : Obj α ρ)
    (S : List α) (T : Option (List α)) (m : Int) (C : List (List α))
    (h : o.ceemdan rng std fuel sp orderN orderT S T m = (.ok C, o')) :
    o'.allNoiseEMD = [] ∧ ∃ res, o'.getImfsAndResidue = .ok (C, res) := by
  obtain ⟨x, noiseEMD, cimfs, -, -, -, -, -, ho'⟩ := Obj.ceemdan_ok h
  rw [ho']
  exact ⟨rfl, _, rfl⟩

/-- C43, accessor: after any history of `noise_seed` and `ceemdan` calls on a new object, failed calls included, the
accessor raises `ValueError` if no call has succeeded and returns the rows of the latest successful call otherwise.
Law-free. -/
theorem C43_accessor (rng : Rng α ρ) (std : List α → α) (sp : SciPy α) (cfg : Cfg α) (ecfg : EMD.Cfg α) (r : ρ) (ops : List (Op α)) :
    match lastSuccess rng std sp (Obj.new cfg ecfg r) ops none with
    | none => ((Obj.new cfg ecfg r).run rng std sp ops).getImfsAndResidue = .error .valueError
    | some (_, C) => ∃ res, ((Obj.new cfg ecfg r).run rng std sp ops).getImfsAndResidue = .ok (C, res) := by
  have key : ∀ (ops : List (Op α)) (o : Obj α ρ) (prev : Option (List α × List (List α))),
      (match prev with
        | none => o.getImfsAndResidue = .error .valueError
        | some (_, C) => ∃ res, o.getImfsAndResidue = .ok (C, res)) →
      match lastSuccess rng std sp o ops prev with
      | none => (o.run rng std sp ops).getImfsAndResidue = .error .valueError
      | some (_, C) => ∃ res, (o.run rng std sp ops).getImfsAndResidue = .ok (C, res) := by
    intro ops
    induction ops with
    | nil => exact fun o prev h => h
    | cons op ops ih =>
      intro o prev h
      unfold lastSuccess Obj.run
      apply ih
      cases op with
      | seed s => exact h
      | ceemdan fuel orderN orderT S T m =>
        simp only [Obj.step]
        cases hc : o.ceemdan rng std fuel sp orderN orderT S T m with
        | mk x o' =>
          cases x with
          | ok C => exact (C43_after_call rng std fuel sp orderN orderT o o' S T m C hc).2
          | error e =>
            obtain ⟨-, -, h1, h2⟩ := Obj.ceemdan_error hc
            have : o'.getImfsAndResidue = o.getImfsAndResidue := by simp only [Obj.getImfsAndResidue, h1, h2]
            simp only [this]
            exact h
  exact key ops _ none rfl

/-- A failed call (constant signal), a success, a reseed, another failed call. -/
example : ((sampleObj sampleCfg).run EEMD.sampleRng sampleStd linSciPy [.ceemdan 20 [] [] [1, 1, 1] none (-1)]).getImfsAndResidue =
      .error .valueError ∧
    okWith (fun p => p.1.length == 3) ((sampleObj sampleCfg).run EEMD.sampleRng sampleStd linSciPy
      [.ceemdan 20 [] [] [1, 1, 1] none (-1), .ceemdan 20 [] [] EMD.sampleS none (-1), .seed 4,
       .ceemdan 20 [] [] [1, 1, 1] none (-1)]).getImfsAndResidue = true := by
  constructor
  · apply errIs_iff.1
    decide +kernel
  · decide +kernel

/-- C43, independence: after any history, what `ceemdan` returns (or raises), what it stores and the state it leaves depend
only on the configuration, the inner EMD's configuration and the state of the random stream: it is what a new object with
that random state does.  Law-free. -/
theorem C43_history_independent (rng : Rng α ρ) (std : List α → α) (sp : SciPy α) (o : Obj α ρ) (ops : List (Op α)) (fuel : Nat)
    (orderN orderT : List Nat) (S : List α) (T : Option (List α)) (m : Int) :
    let used := o.run rng std sp ops
    let fresh := Obj.new o.cfg o.emd used.random
    (used.ceemdan rng std fuel sp orderN orderT S T m).1 = (fresh.ceemdan rng std fuel sp orderN orderT S T m).1 ∧
    (used.ceemdan rng std fuel sp orderN orderT S T m).2.random = (fresh.ceemdan rng std fuel sp orderN orderT S T m).2.random ∧
    ∀ C, (fresh.ceemdan rng std fuel sp orderN orderT S T m).1 = .ok C →
      (used.ceemdan rng std fuel sp orderN orderT S T m).2 = (fresh.ceemdan rng std fuel sp orderN orderT S T m).2 := by
  dsimp only
  have hrun : ∀ (ops : List (Op α)) (o : Obj α ρ), (o.run rng std sp ops).cfg = o.cfg ∧ (o.run rng std sp ops).emd = o.emd := by
    intro ops
    induction ops with
    | nil => exact fun _ => ⟨rfl, rfl⟩
    | cons op ops ih =>
      intro o
      unfold Obj.run
      rw [(ih _).1, (ih _).2]
      cases op with
      | seed s => exact ⟨rfl, rfl⟩
      | ceemdan fuel orderN orderT S T m =>
        simp only [Obj.step]
        cases hc : o.ceemdan rng std fuel sp orderN orderT S T m with
        | mk x o' =>
          cases x with
          | ok C =>
            obtain ⟨_, _, _, -, -, -, -, -, ho'⟩ := Obj.ceemdan_ok hc
            rw [ho']
            exact ⟨rfl, rfl⟩
          | error e => exact ⟨(Obj.ceemdan_error hc).1, (Obj.ceemdan_error hc).2.1⟩
  obtain ⟨h1, h2⟩ := hrun ops o
  generalize o.run rng std sp ops = u at h1 h2
  unfold Obj.ceemdan
  simp only [Obj.new, h1, h2]
  split
  · exact ⟨rfl, rfl, by simp⟩
  · cases hn : noises rng o.cfg u.random (vdiv S (std S)).length with
    | mk x r =>
      cases x with
      | error e => exact ⟨rfl, rfl, by simp⟩
      | ok x =>
        dsimp only
        cases decomposeNoise std fuel sp o.cfg o.emd orderN x with
        | error e => exact ⟨rfl, rfl, by simp⟩
        | ok noiseEMD =>
          dsimp only
          cases body std fuel sp o.cfg o.emd noiseEMD orderT (vdiv S (std S)) T m with
          | error e => exact ⟨rfl, rfl, by simp⟩
          | ok c => exact ⟨rfl, rfl, fun _ _ => rfl⟩

/-- The object of the example has decomposed another signal before. -/
example : okWith (fun E => E.length == 2) (((sampleObj sampleCfg).run EEMD.sampleRng sampleStd linSciPy
    [.ceemdan 20 [] [] EMD.sampleS none (-1)]).ceemdan EEMD.sampleRng sampleStd 20 linSciPy [] [] EEMD.sampleS none (-1)).1 = true := by
  decide +kernel

end LawFree

section Exact

variable {K ρ : Type} [Field K] [LinearOrder K] [IsStrictOrderedRing K] [FloorRing K]

/-! ## C42 -/

theorem isMean_perm {n : Nat} {xs ys : List (List K)} {m : List K} (h : xs.Perm ys) (hm : IsMean n xs m) : IsMean n ys m := by
  refine ⟨hm.1, fun i hi => ?_⟩
  rw [hm.2 i hi, h.length_eq, (h.map _).sum_eq]

/-- The first stage: row 0. -/
theorem eemd_mean {fuel : Nat} {sp : SciPy K} {cfg : Cfg K} {ecfg : EMD.Cfg K} {noiseEMD : List (List (List K))} {order : List Nat}
    {S : List K} {T : Option (List K)} {first : List K} {E : List (List K)} (hn : Lens S.length noiseEMD)
    (hlen : noiseEMD.length = cfg.trials) (hord : cfg.parallel = true → order.Perm (List.range cfg.trials))
    (h : eemd fuel sp cfg ecfg noiseEMD order S T 1 = .ok (first :: E)) :
    ∃ T', TimeFor S T T' ∧ MeanOver S.length noiseEMD (FirstComponent fuel sp ecfg S T' cfg.epsilon) first := by
  obtain ⟨T', rs, E', hT, hrs, hl, ht, hE⟩ := eemd_ok hn h
  have hperm : (List.range cfg.trials).Perm (if cfg.parallel then order else List.range cfg.trials) := by
    split
    next hp => exact (hord hp).symm
    · exact .refl _
  obtain ⟨rs', hrs', hp'⟩ := List.perm_comp_forall₂ hperm hrs
  have hl' : Lens S.length rs' := fun x hx => hl x (hp'.mem_iff.1 hx)
  simp only [List.cons.injEq] at hE
  obtain ⟨rfl, -⟩ := hE
  refine ⟨T', hT, heads S.length rs', ?_, ?_⟩
  · rw [heads, List.forall₂_map_right_iff]
    have hl2 := hrs'.length_eq
    rw [List.length_range] at hl2
    rw [List.forall₂_iff_get]
    refine ⟨by omega, fun i h1 h2 => ?_⟩
    have := (List.forall₂_iff_get.1 hrs').2 i (by rw [List.length_range]; omega) h2
    simp only [List.get_eq_getElem, List.getElem_range] at this ⊢
    obtain ⟨imfs, j, h1', h2', h3⟩ := trialUpdate_ok this
    rw [List.getElem?_eq_getElem h1, Option.some.injEq] at h1'
    subst h1'
    obtain ⟨⟨R, hR, hRr⟩, -⟩ := emd_ok h3
    refine ⟨j, R, h2', by rw [← hR, vadd_vscale], ?_⟩
    rw [hRr]
    rfl
  · have hr : rs.length = cfg.trials := by
      rw [← hp'.length_eq, ← hrs'.length_eq, List.length_range]
    apply isMean_perm (xs := heads S.length rs)
    · exact (hp'.map _).symm
    · exact isMean_div_sum _ _ _ (heads_length hl) (by rw [heads, List.length_map, hr])

/-- C42: the call draws one block of `trials * n` noise samples, cut into `trials` rows, and decomposes every row (and, with
`beta_progress`, divides by the standard deviation of its first component).  For the signal `S' = S / std(S)`:
row 0 is the mean over the trials of the first components of `S'` plus `epsilon` times the first noise component; `L₀` is
what is left of `S'`; `L₁, L₂, ...` are the means over the trials of the local means of the previous one with the next
noise component added; the later rows are the differences `L₀ - L₁, L₁ - L₂, ...` and the last row is the last `L`; all rows
are multiplied by `std(S)` at the end. -/
theorem C42_stages (rng : Rng K ρ) (hs : Sized rng) (std : List K → K) (fuel : Nat) (sp : SciPy K) (orderN orderT : List Nat)
    (o o' : Obj K ρ) (S : List K) (T : Option (List K)) (m : Int) (C : List (List K))
    (hN : o.cfg.parallel = true → Schedule o.cfg.trials o.cfg.processes orderN)
    (hT : o.cfg.parallel = true → orderT.Perm (List.range o.cfg.trials))
    (h : o.ceemdan rng std fuel sp orderN orderT S T m = (.ok C, o')) :
    ∃ S' flat x noise T' first L₀ Ls, std S ≠ 0 ∧ S' = S.map (fun s => s / std S) ∧
      Draw rng o.cfg.noiseKind o.cfg.noiseScale (o.cfg.trials * S.length) o.random flat o'.random ∧
      x.flatten = flat ∧ x.length = o.cfg.trials ∧ (∀ r ∈ x, r.length = S.length) ∧
      List.Forall₂ (NoiseImfs std fuel sp o.emd o.cfg.betaProgress) x noise ∧
      TimeFor S' T T' ∧
      MeanOver S.length noise (FirstComponent fuel sp o.emd S' T' o.cfg.epsilon) first ∧
      L₀ = List.zipWith (fun a b => a - b) S' first ∧
      Chain std fuel sp o.emd T o.cfg.epsilon S.length noise 1 L₀ Ls ∧
      C = ((first :: List.zipWith (List.zipWith (fun a b => a - b)) (L₀ :: Ls) Ls) ++ [(L₀ :: Ls).getLast (by simp)]).map
        (fun r => r.map (fun y => y * std S)) := by
  obtain ⟨x, noiseEMD, cimfs, hstd, hx, hd, hb, hC, -⟩ := Obj.ceemdan_ok h
  have hlen : (vdiv S (std S)).length = S.length := by simp [vdiv]
  rw [hlen] at hx
  obtain ⟨flat, hdraw, rfl⟩ := noises_ok hx
  have hfl := draw_length hs hdraw
  have hxl := length_reshape S.length o.cfg.trials flat
  have hxr := reshape_rows S.length o.cfg.trials flat hfl
  have hnoise := decomposeNoise_ok hxl hN hd
  have hL : Lens (vdiv S (std S)).length noiseEMD := by
    intro imfs himfs r hr
    obtain ⟨y, hy, hyi⟩ := mem_of_forall₂ hnoise himfs
    rw [NoiseImfs.lengths hyi r hr, hxr y hy, hlen]
  have hnl : noiseEMD.length = o.cfg.trials := by rw [← hnoise.length_eq, hxl]
  unfold body at hb
  split at hb
  · cases hb
  next E hE =>
    split at hb
    · cases hb
    next first E' =>
      split at hb
      · cases hb
      next c hc =>
        injection hb with hb
        obtain ⟨T', hTT, hfirst⟩ := eemd_mean hL hnl hT hE
        have hfl' : first.length = (vdiv S (std S)).length := by
          obtain ⟨_, -, hm⟩ := hfirst
          exact hm.1
        have hsum : sumRows (vdiv S (std S)).length [first] = first := by
          simp only [sumRows, List.foldl_cons, List.foldl_nil]
          rw [← hfl']
          simp only [vadd, vzeros, lit_zero]
          apply List.ext_getElem (by simp)
          intro i _ _
          simp
        obtain ⟨Ls, h1, h2, h3, h4, h5, h6, h7⟩ := stages_ok hL hnl _ (by simpa using hfl') (by rw [hsum]) hc
        refine ⟨vdiv S (std S), flat, _, noiseEMD, T', first, vsub (vdiv S (std S)) first, Ls, ?_, rfl, hdraw,
          flatten_reshape _ _ _ hfl, hxl, hxr, hnoise, hTT, ?_, rfl, ?_, ?_⟩
        · have : ¬ (std S == lit 0) = true := by rw [hstd]; simp
          rwa [beq_iff_eq, lit_zero] at this
        · rw [← hlen]; exact hfirst
        · rw [← hlen]; exact h1
        · rw [hC, ← hb, h6, h3]
          rfl

/-- Three rows, i.e. one stage after the first component; sequential, and parallel with two completion orders. -/
example : okWith (fun E => E.length == 3)
      ((sampleObj sampleCfg).ceemdan EEMD.sampleRng sampleStd 20 linSciPy [] [] EMD.sampleS none (-1)).1 = true ∧
    okWith (fun E => E.length == 3)
      ((sampleObj { sampleCfg with parallel := true }).ceemdan EEMD.sampleRng sampleStd 20 linSciPy [2, 0, 1] [1, 2, 0] EMD.sampleS none
        (-1)).1 = true ∧ Sized EEMD.sampleRng ∧ Schedule 3 1 [2, 0, 1] ∧ [1, 2, 0].Perm (List.range 3) :=
  ⟨by decide +kernel, by decide +kernel, EEMD.sampleRng_sized, ⟨by decide, by decide⟩, by decide⟩

/-! ## C39 -/

theorem vscale_getD (c : K) (r : List K) (i : Nat) : (vscale c r).getD i 0 = r.getD i 0 * c := by
  rw [List.getD_eq_getElem?_getD, List.getD_eq_getElem?_getD, vscale, List.getElem?_map]
  cases r[i]? <;> simp

theorem sum_map_mul (l : List (List K)) (c : K) (f : List K → K) : (l.map (fun r => f r * c)).sum = (l.map f).sum * c := by
  induction l with
  | nil => simp
  | cons a l ih => simp [ih, add_mul]

/-- C39: the rows have as many samples as the signal and add up exactly to it, and the residue reported by
`get_imfs_and_residue()` is zero everywhere. -/
theorem C39_complete (rng : Rng K ρ) (hs : Sized rng) (std : List K → K) (fuel : Nat) (sp : SciPy K) (orderN orderT : List Nat)
    (o o' : Obj K ρ) (S : List K) (T : Option (List K)) (m : Int) (C : List (List K))
    (hN : o.cfg.parallel = true → Schedule o.cfg.trials o.cfg.processes orderN)
    (hT : o.cfg.parallel = true → orderT.Perm (List.range o.cfg.trials))
    (h : o.ceemdan rng std fuel sp orderN orderT S T m = (.ok C, o')) :
    (∀ r ∈ C, r.length = S.length) ∧ (∀ i (hi : i < S.length), (C.map (fun r => r.getD i 0)).sum = S[i]) ∧
    o'.getImfsAndResidue = .ok (C, List.replicate S.length 0) := by
  obtain ⟨x, noiseEMD, cimfs, hstd, hx, hd, hb, hC, ho'⟩ := Obj.ceemdan_ok h
  have hlen : (vdiv S (std S)).length = S.length := by simp [vdiv]
  have hstd0 : std S ≠ 0 := by
    have : ¬ (std S == lit 0) = true := by rw [hstd]; simp
    rwa [beq_iff_eq, lit_zero] at this
  rw [hlen] at hx
  obtain ⟨flat, hdraw, rfl⟩ := noises_ok hx
  have hxl := length_reshape S.length o.cfg.trials flat
  have hxr := reshape_rows S.length o.cfg.trials flat (draw_length hs hdraw)
  have hnoise := decomposeNoise_ok hxl hN hd
  have hL : Lens (vdiv S (std S)).length noiseEMD := by
    intro imfs himfs r hr
    obtain ⟨y, hy, hyi⟩ := mem_of_forall₂ hnoise himfs
    rw [NoiseImfs.lengths hyi r hr, hxr y hy, hlen]
  have hnl : noiseEMD.length = o.cfg.trials := by rw [← hnoise.length_eq, hxl]
  obtain ⟨c, hcl, hcc⟩ : ∃ c, (∀ r ∈ c, r.length = S.length) ∧ cimfs = c ++ [vsub (vdiv S (std S)) (sumRows S.length c)] := by
    unfold body at hb
    split at hb
    · cases hb
    next E hE =>
      split at hb
      · cases hb
      next first E' =>
        split at hb
        · cases hb
        next c hc =>
          injection hb with hb
          obtain ⟨T', hTT, xs, -, hm⟩ := eemd_mean hL hnl hT hE
          have hsum : sumRows (vdiv S (std S)).length [first] = first := by
            simp only [sumRows, List.foldl_cons, List.foldl_nil]
            rw [← hm.1]
            simp only [vadd, vzeros, lit_zero]
            apply List.ext_getElem (by simp)
            intro i _ _
            simp
          obtain ⟨Ls, -, -, -, h4, -⟩ := stages_ok hL hnl _ (by simpa using hm.1) (by rw [hsum]) hc
          rw [hlen] at h4 hb
          exact ⟨c, h4, hb.symm⟩
  have hsl := length_sumRows S.length c hcl
  have hrows : ∀ r ∈ cimfs, r.length = S.length := by
    intro r hr
    rw [hcc] at hr
    rcases List.mem_append.1 hr with hr | hr
    · exact hcl r hr
    · rw [List.mem_singleton.1 hr, length_vsub, hlen, hsl, Nat.min_self]
  have hCl : ∀ r ∈ C, r.length = S.length := by
    intro r hr
    rw [hC] at hr
    obtain ⟨r', hr', rfl⟩ := List.mem_map.1 hr
    rw [vscale, List.length_map, hrows r' hr']
  have hsum : ∀ i (hi : i < S.length), (C.map (fun r => r.getD i 0)).sum = S[i] := by
    intro i hi
    rw [hC, List.map_map]
    have : (fun r : List K => r.getD i 0) ∘ vscale (std S) = fun r => r.getD i 0 * std S := by
      funext r
      exact vscale_getD _ _ _
    rw [this, sum_map_mul, hcc, List.map_append, List.sum_append, ← sumRows_getD _ _ hcl i hi]
    simp only [List.map_cons, List.map_nil, List.sum_cons, List.sum_nil]
    rw [vsub_getD _ _ _ (by rw [hlen]; exact hi) (by rw [hsl]; exact hi), getD_lt (vdiv S (std S)) _ (by rw [hlen]; exact hi)]
    simp only [vdiv, List.getElem_map]
    field_simp
    ring
  refine ⟨hCl, hsum, ?_⟩
  have hres : vsub (vscale (std S) (vdiv S (std S))) (sumRows (vdiv S (std S)).length C) = List.replicate S.length 0 := by
    rw [hlen]
    have hl2 : (vscale (std S) (vdiv S (std S))).length = S.length := by simp [vscale, vdiv]
    have hl3 := length_sumRows S.length C hCl
    apply list_ext_getD S.length _ _ (by rw [length_vsub, hl2, hl3, Nat.min_self]) (by simp)
    intro i hi
    rw [vsub_getD _ _ _ (by omega) (by omega), sumRows_getD _ _ hCl i hi, hsum i hi, vscale_getD, getD_lt _ _ (by rw [hlen]; exact hi),
      getD_lt _ _ (by simpa using hi)]
    simp only [vdiv, List.getElem_map, List.getElem_replicate]
    field_simp
    ring
  rw [ho', ← hres]
  rfl

example : okWith (fun E => E.map (fun r => r.length) == [10, 10, 10])
      ((sampleObj sampleCfg).ceemdan EEMD.sampleRng sampleStd 20 linSciPy [] [] EMD.sampleS none (-1)).1 = true ∧
    Sized EEMD.sampleRng := ⟨by decide +kernel, EEMD.sampleRng_sized⟩

/-! ## C41 -/

/-- The same configuration without a pool. -/
def Cfg.sequential (cfg : Cfg K) : Cfg K := { cfg with parallel := false }

/-- The same object without a pool. -/
def Obj.sequential (o : Obj K ρ) : Obj K ρ := { o with cfg := o.cfg.sequential }

theorem decomposeNoise_sequential (std : List K → K) (fuel : Nat) (sp : SciPy K) (cfg : Cfg K) (ecfg : EMD.Cfg K) (order : List Nat)
    (x : List (List K)) (hx : x.length = cfg.trials) (hp : cfg.parallel = true) (ho : Schedule cfg.trials cfg.processes order) :
    decomposeNoise std fuel sp cfg ecfg order x = decomposeNoise std fuel sp cfg.sequential ecfg [] x ∨
    ∃ e e', decomposeNoise std fuel sp cfg ecfg order x = .error e ∧ decomposeNoise std fuel sp cfg.sequential ecfg [] x = .error e' := by
  unfold decomposeNoise
  simp only [Cfg.sequential, hp, if_true, Bool.false_eq_true, if_false]
  have := poolMap_mapE (fun y => emd fuel sp ecfg y none (-1)) x cfg.processes order (by rw [hx]; exact ho)
  rw [hx] at this
  cases hraw : mapE (fun y => emd fuel sp ecfg y none (-1)) x with
  | error e =>
    obtain ⟨e', he'⟩ := this.2 e hraw
    rw [he']
    exact .inr ⟨e', e, rfl, rfl⟩
  | ok raw =>
    rw [this.1 raw hraw]
    exact .inl rfl

theorem forall₂_det {β γ : Type} {f : β → PyM γ} {l : List β} {a b : List γ} (ha : List.Forall₂ (fun x y => f x = .ok y) l a)
    (hb : List.Forall₂ (fun x y => f x = .ok y) l b) : a = b := by
  induction ha generalizing b with
  | nil => cases hb; rfl
  | cons h _ ih =>
    cases hb with
    | cons h' hb => rw [h, Except.ok.injEq] at h'; rw [h', ih hb]

theorem stages_sequential (std : List K → K) (fuel : Nat) (sp : SciPy K) (cfg : Cfg K) (ecfg : EMD.Cfg K) (noiseEMD : List (List (List K)))
    (S : List K) (T : Option (List K)) (m : Int) (n : Nat) (cimfs : List (List K)) (prev : List K) :
    stages std fuel sp cfg.sequential ecfg noiseEMD S T m n cimfs prev = stages std fuel sp cfg ecfg noiseEMD S T m n cimfs prev := by
  induction n generalizing cimfs prev with
  | zero => rfl
  | succ n ih =>
    unfold stages
    have h1 : endCondition fuel sp cfg.sequential ecfg S cimfs m = endCondition fuel sp cfg ecfg S cimfs m := rfl
    have h2 : localMean std fuel sp cfg.sequential ecfg noiseEMD prev T cimfs.length =
      localMean std fuel sp cfg ecfg noiseEMD prev T cimfs.length := rfl
    rw [h1, h2]
    simp only [ih]

theorem eemd_sequential (fuel : Nat) (sp : SciPy K) (cfg : Cfg K) (ecfg : EMD.Cfg K) (noiseEMD : List (List (List K))) (order : List Nat)
    (S : List K) (T : Option (List K)) (hn : Lens S.length noiseEMD) (hp : cfg.parallel = true)
    (ho : order.Perm (List.range cfg.trials)) :
    (∃ first E E', eemd fuel sp cfg ecfg noiseEMD order S T 1 = .ok (first :: E) ∧
      eemd fuel sp cfg.sequential ecfg noiseEMD [] S T 1 = .ok (first :: E')) ∨
    ∃ e e', eemd fuel sp cfg ecfg noiseEMD order S T 1 = .error e ∧ eemd fuel sp cfg.sequential ecfg noiseEMD [] S T 1 = .error e' := by
  have herr : (∃ e, eemd fuel sp cfg ecfg noiseEMD order S T 1 = .error e) ↔
      ∃ e, eemd fuel sp cfg.sequential ecfg noiseEMD [] S T 1 = .error e := by
    have key : ∀ T' : List K, (∃ e, (match mapE (trialUpdate fuel sp cfg ecfg noiseEMD S T' 1) order with
          | .error e => .error e
          | .ok rs =>
            if cfg.trials = 0 then .error .nonFinite
            else .ok ((rs.foldl (accumulate S.length) [vzeros S.length]).map (fun r => vdiv r (lit (cfg.trials : ℚ)))) :
              PyM (List (List K))) = .error e) ↔
        ∃ e, (match mapE (trialUpdate fuel sp cfg ecfg noiseEMD S T' 1) (List.range cfg.trials) with
          | .error e => .error e
          | .ok rs =>
            if cfg.trials = 0 then .error .nonFinite
            else .ok ((rs.foldl (accumulate S.length) [vzeros S.length]).map (fun r => vdiv r (lit (cfg.trials : ℚ)))) :
              PyM (List (List K))) = .error e := by
      intro T'
      have hiff : (∃ e, mapE (trialUpdate fuel sp cfg ecfg noiseEMD S T' 1) order = .error e) ↔
          ∃ e, mapE (trialUpdate fuel sp cfg ecfg noiseEMD S T' 1) (List.range cfg.trials) = .error e := by
        rw [mapE_error, mapE_error]
        constructor
        · rintro ⟨x, hx, h⟩
          exact ⟨x, ho.mem_iff.1 hx, h⟩
        · rintro ⟨x, hx, h⟩
          exact ⟨x, ho.mem_iff.2 hx, h⟩
      cases h1 : mapE (trialUpdate fuel sp cfg ecfg noiseEMD S T' 1) order with
      | error e =>
        obtain ⟨e', he'⟩ := hiff.1 ⟨e, h1⟩
        rw [he']
        simp
      | ok rs =>
        cases h2 : mapE (trialUpdate fuel sp cfg ecfg noiseEMD S T' 1) (List.range cfg.trials) with
        | error e =>
          obtain ⟨e', he'⟩ := hiff.2 ⟨e, h2⟩
          rw [h1] at he'
          cases he'
        | ok rs' =>
          by_cases ht : cfg.trials = 0 <;> simp [ht]
    unfold eemd
    simp only [Cfg.sequential, hp, if_true, Bool.false_eq_true, if_false]
    exact key _
  cases h1 : eemd fuel sp cfg ecfg noiseEMD order S T 1 with
  | error e =>
    obtain ⟨e', he'⟩ := herr.1 ⟨e, h1⟩
    exact .inr ⟨e, e', rfl, he'⟩
  | ok E =>
    cases h2 : eemd fuel sp cfg.sequential ecfg noiseEMD [] S T 1 with
    | error e =>
      obtain ⟨e', he'⟩ := herr.2 ⟨e, h2⟩
      rw [h1] at he'
      cases he'
    | ok E' =>
      left
      obtain ⟨T', rs, E1, hT, hrs, hl, ht, hE⟩ := eemd_ok hn h1
      obtain ⟨T'', rs', E1', hT', hrs', hl', ht', hE'⟩ := eemd_ok hn h2
      have hTT : T'' = T' := by
        cases T with
        | some T => exact (hT' : T'' = T).trans (hT : T' = T).symm
        | none => exact Eq.trans hT' (Eq.symm hT)
      subst hTT
      simp only [hp, if_true, Cfg.sequential, Bool.false_eq_true, if_false] at hrs hrs'
      obtain ⟨w, hw, hwp⟩ := List.perm_comp_forall₂ ho.symm hrs
      have : w = rs' := forall₂_det hw hrs'
      subst this
      refine ⟨_, E1, E1', by rw [hE], ?_⟩
      rw [hE']
      simp only [Cfg.sequential]
      rw [sumRows_perm S.length (heads S.length w) (heads S.length rs) (hwp.map _) (heads_length hl')]

/-- C41: for every way in which the pool may finish the chunks of the noise decomposition and the trials of the first
stage, and for every number of processes, the parallel call returns rows exactly if the sequential one does, and then the
same rows; it leaves the same random state, and on success the same stored results.  (If trials raise, both raise, but the
pool may report the exception of another trial.) -/
theorem C41_parallel_eq_sequential (rng : Rng K ρ) (hs : Sized rng) (std : List K → K) (fuel : Nat) (sp : SciPy K)
    (orderN orderT : List Nat) (o : Obj K ρ) (S : List K) (T : Option (List K)) (m : Int) (hp : o.cfg.parallel = true)
    (hN : Schedule o.cfg.trials o.cfg.processes orderN) (hT : orderT.Perm (List.range o.cfg.trials)) :
    (∀ C, (o.ceemdan rng std fuel sp orderN orderT S T m).1 = .ok C ↔ (o.sequential.ceemdan rng std fuel sp [] [] S T m).1 = .ok C) ∧
    (o.ceemdan rng std fuel sp orderN orderT S T m).2.random = (o.sequential.ceemdan rng std fuel sp [] [] S T m).2.random ∧
    ∀ C, (o.ceemdan rng std fuel sp orderN orderT S T m).1 = .ok C →
      (o.ceemdan rng std fuel sp orderN orderT S T m).2.sequential = (o.sequential.ceemdan rng std fuel sp [] [] S T m).2 := by
  unfold Obj.ceemdan
  simp only [Obj.sequential]
  split
  · simp
  · have hnn : noises rng o.cfg.sequential o.random (vdiv S (std S)).length = noises rng o.cfg o.random (vdiv S (std S)).length := rfl
    rw [hnn]
    cases hn : noises rng o.cfg o.random (vdiv S (std S)).length with
    | mk x r =>
      cases x with
      | error e => simp
      | ok x =>
        dsimp only
        obtain ⟨flat, hdraw, rfl⟩ := noises_ok hn
        have hxl := length_reshape (vdiv S (std S)).length o.cfg.trials flat
        have hxr := reshape_rows (vdiv S (std S)).length o.cfg.trials flat (draw_length hs hdraw)
        rcases decomposeNoise_sequential std fuel sp o.cfg o.emd orderN _ hxl hp hN with heq | ⟨e, e', he, he'⟩
        · rw [← heq]
          cases hd : decomposeNoise std fuel sp o.cfg o.emd orderN (reshape (vdiv S (std S)).length o.cfg.trials flat) with
          | error e => simp
          | ok noiseEMD =>
            have hnoise := decomposeNoise_ok hxl (fun _ => hN) hd
            have hL : Lens (vdiv S (std S)).length noiseEMD := by
              intro imfs himfs r hr
              obtain ⟨y, hy, hyi⟩ := mem_of_forall₂ hnoise himfs
              rw [NoiseImfs.lengths hyi r hr, hxr y hy]
            dsimp only
            have hbody : body std fuel sp o.cfg o.emd noiseEMD orderT (vdiv S (std S)) T m =
                  body std fuel sp o.cfg.sequential o.emd noiseEMD [] (vdiv S (std S)) T m ∨
                ∃ e e', body std fuel sp o.cfg o.emd noiseEMD orderT (vdiv S (std S)) T m = .error e ∧
                  body std fuel sp o.cfg.sequential o.emd noiseEMD [] (vdiv S (std S)) T m = .error e' := by
              unfold body
              rcases eemd_sequential fuel sp o.cfg o.emd noiseEMD orderT (vdiv S (std S)) T hL hp hT with
                ⟨first, E, E', h1, h2⟩ | ⟨e, e', h1, h2⟩
              · left
                rw [h1, h2]
                dsimp only
                rw [stages_sequential]
                rfl
              · exact .inr ⟨e, e', by rw [h1], by rw [h2]⟩
            rcases hbody with hb | ⟨e, e', he, he'⟩
            · rw [hb]
              cases body std fuel sp o.cfg.sequential o.emd noiseEMD [] (vdiv S (std S)) T m with
              | error e => simp
              | ok c => simp
            · rw [he, he']
              simp
        · rw [he, he']
          simp

/-- Four trials on two processes, finishing in two unusual orders. -/
example : okWith (fun C => okWith (fun C' => C == C' && C.length == 3)
      ((sampleObj { sampleCfg with trials := 4 }).ceemdan EEMD.sampleRng sampleStd 20 linSciPy [] [] EMD.sampleS none (-1)).1)
    ((sampleObj { sampleCfg with trials := 4, parallel := true, processes := 2 }).ceemdan EEMD.sampleRng sampleStd 20 linSciPy
      [2, 0, 3, 1] [3, 1, 0, 2] EMD.sampleS none (-1)).1 = true ∧ Schedule 4 2 [2, 0, 3, 1] ∧ [3, 1, 0, 2].Perm (List.range 4) :=
  ⟨by decide +kernel, ⟨by decide, by decide⟩, by decide⟩

end Exact

end CEEMDAN
end PyEMD
