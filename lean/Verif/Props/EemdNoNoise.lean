import Verif.Props.EnsembleTime
import Verif.Props.Eemd
import Verif.Props.IeeeParabol

/-!
# C153: `EEMD` without noise in floating point
-/

set_option linter.unusedSectionVars false

namespace PyEMD
namespace EEMD
open Spec

section
variable {α ρ : Type} [Add α] [Sub α] [Mul α] [Div α] [Neg α] [LT α] [LE α] [BEq α] [DecidableLT α] [DecidableLE α] [NpScalar α]

/-- What zero does in every arithmetic at hand. -/
structure ZeroLaws (α : Type) [Add α] [Div α] [Neg α] [NpScalar α] : Prop where
  add_zero : ∀ x : α, x + lit 0 = x
  neg_zero : -(lit 0 : α) = lit 0
  zero_div : (lit 0 : α) / lit 2 = lit 0

/-- The mean of `t` equal numbers as it is computed: their sum from left to right, divided by `t`. -/
def average (t : Nat) (x : α) : α := (List.replicate t x).foldl (· + ·) (lit 0) / lit (t : ℚ)

theorem zipWith_zero' (hl : ZeroLaws α) (S : List α) : vadd S (List.replicate S.length (lit 0)) = S := by
  unfold vadd
  induction S with
  | nil => rfl
  | cons a S ih => simp [List.replicate_succ, ih, hl.add_zero]

theorem emdPure_timeline' (fuel : Nat) (sp : SciPy α) (cfg : EMD.Cfg α) (S : List α) (T : Option (List α)) (T' : List α) (m : Int)
    (hS : S ≠ []) (h : TimeFor S T T') : EMD.emdPure fuel sp cfg S (some T') m = EMD.emdPure fuel sp cfg S T m := by
  cases T with
  | some t => rw [show T' = t from h]
  | none =>
    have h' : T' = (List.range S.length).map (fun k : Nat => lit (k : ℚ)) := h
    have hl : S.length ≠ 0 := by simpa using hS
    have : EMD.prepareTime cfg S (some T') = EMD.prepareTime cfg S none := by
      subst h'
      simp only [EMD.prepareTime, EMD.timeline, hl, if_false, List.length_map, List.length_range, ne_eq, not_true_eq_false,
        bind, Except.bind]
      split <;> rfl
    simp only [EMD.emdPure, EMD.emdRounds, this]

theorem generateNoise_zero' (rng : Rng α ρ) (hl : ZeroLaws α) (hz : ZeroScale rng) (kind : NoiseKind) (hk : kind ≠ .unknown) (r : ρ) (n : Nat) :
    (generateNoise rng kind r (lit 0) n).1 = .ok (List.replicate n (lit 0)) := by
  unfold generateNoise
  cases kind with
  | normal => simp only [hz.1 r n]
  | uniform => simp only [hl.neg_zero, hl.zero_div, hz.2 r n]
  | unknown => exact absurd rfl hk

theorem trialUpdate_zero' (rng : Rng α ρ) (hl : ZeroLaws α) (hz : ZeroScale rng) (fuel : Nat) (sp : SciPy α) (cfg : Cfg α) (hk : cfg.noiseKind ≠ .unknown)
    (job : Job α) (hsc : job.scale = lit 0) (st : TrialState α ρ) :
    ∃ st', st'.emd.cfg = st.emd.cfg ∧ trialUpdate rng fuel sp cfg job st =
      (trialOut fuel sp cfg.separateTrends st.emd.cfg job (List.replicate job.S.length (lit 0)), st') := by
  obtain ⟨o, ho, e⟩ := trialUpdate_eq rng fuel sp cfg job st
  rw [hsc, generateNoise_zero' rng hl hz _ hk] at e
  exact ⟨_, ho, e⟩

theorem runTrials_zero' (rng : Rng α ρ) (hl : ZeroLaws α) (hz : ZeroScale rng) (fuel : Nat) (sp : SciPy α) (cfg : Cfg α) (hk : cfg.noiseKind ≠ .unknown)
    (job : Job α) (hsc : job.scale = lit 0) (n : Nat) (st : TrialState α ρ) (d : Dict (List (List α))) :
    (∀ out, trialOut fuel sp cfg.separateTrends st.emd.cfg job (List.replicate job.S.length (lit 0)) = .ok out →
      ∃ st', runTrials rng fuel sp cfg job n st d = (.ok (), st', (List.replicate n out).foldl addTrial d)) ∧
    (∀ e, trialOut fuel sp cfg.separateTrends st.emd.cfg job (List.replicate job.S.length (lit 0)) = .error e → 0 < n →
      ∃ st' d', runTrials rng fuel sp cfg job n st d = (.error e, st', d')) := by
  induction n generalizing st d with
  | zero => exact ⟨fun out _ => ⟨st, rfl⟩, fun e _ h => absurd h (by omega)⟩
  | succ n ih =>
    obtain ⟨st1, hc, e1⟩ := trialUpdate_zero' rng hl hz fuel sp cfg hk job hsc st
    constructor
    · intro out hout
      obtain ⟨st', h'⟩ := (ih st1 (addTrial d out)).1 out (by rw [hc]; exact hout)
      refine ⟨st', ?_⟩
      unfold runTrials
      rw [e1, hout]
      exact h'
    · intro e he _
      refine ⟨st1, d, ?_⟩
      unfold runTrials
      rw [e1, he]

theorem runChunk_zero' (rng : Rng α ρ) (hl : ZeroLaws α) (hz : ZeroScale rng) (fuel : Nat) (sp : SciPy α) (cfg : Cfg α) (hk : cfg.noiseKind ≠ .unknown)
    (job : Job α) (hsc : job.scale = lit 0) (n : Nat) (st : TrialState α ρ) :
    (∀ out, trialOut fuel sp cfg.separateTrends st.emd.cfg job (List.replicate job.S.length (lit 0)) = .ok out →
      runChunk rng fuel sp cfg job n st = .ok (List.replicate n out)) ∧
    (∀ e, trialOut fuel sp cfg.separateTrends st.emd.cfg job (List.replicate job.S.length (lit 0)) = .error e → 0 < n →
      runChunk rng fuel sp cfg job n st = .error e) := by
  induction n generalizing st with
  | zero => exact ⟨fun out _ => rfl, fun e _ h => absurd h (by omega)⟩
  | succ n ih =>
    obtain ⟨st1, hc, e1⟩ := trialUpdate_zero' rng hl hz fuel sp cfg hk job hsc st
    constructor
    · intro out hout
      unfold runChunk
      rw [e1, hout]
      simp only [(ih st1).1 out (by rw [hc]; exact hout)]
      rfl
    · intro e he _
      unfold runChunk
      rw [e1, he]

theorem mean_replicate' (n : Nat) (row : List α) (h : row.length = n) (t : Nat) : meanRows n (List.replicate t row) = row.map (average t) := by
  have key : ∀ (t : Nat) (row acc : List α), acc.length = row.length →
      (List.replicate t row).foldl vadd acc = List.zipWith (fun a x => (List.replicate t x).foldl (· + ·) a) acc row := by
    intro t
    induction t with
    | zero =>
      intro row acc h
      simp only [List.replicate_zero, List.foldl_nil]
      induction acc generalizing row with
      | nil => rfl
      | cons a acc ih =>
        cases row with
        | nil => simp at h
        | cons x row => rw [List.zipWith_cons_cons, ← ih row (by simpa using h)]
    | succ t ih =>
      intro row acc h
      rw [List.replicate_succ, List.foldl_cons, ih row (vadd acc row) (by simp [vadd, h])]
      simp only [List.replicate_succ, List.foldl_cons, vadd]
      induction acc generalizing row with
      | nil => rfl
      | cons a acc ih =>
        cases row with
        | nil => simp at h
        | cons x row =>
          simp only [List.zipWith_cons_cons]
          rw [ih row (by simpa using h)]
  unfold meanRows
  subst h
  rw [List.length_replicate]
  unfold sumRows
  rw [key t row _ (by simp)]
  induction row with
  | nil => rfl
  | cons x row ih =>
    have : (vzeros (x :: row).length : List α) = lit 0 :: vzeros row.length := rfl
    rw [this, List.zipWith_cons_cons, List.map_cons, List.map_cons, ← ih]
    rfl

theorem height_replicate' (t : Nat) (ht : 1 ≤ t) (c : List (List α)) : height (List.replicate t c) = c.length := by
  obtain ⟨t, rfl⟩ : ∃ u, t = u + 1 := ⟨t - 1, by omega⟩
  induction t with
  | zero => simp [height]
  | succ t ih =>
    have e : height (List.replicate (t + 1 + 1) c) = max c.length (height (List.replicate (t + 1) c)) := rfl
    rw [e, ih (by omega), max_self]

theorem mean_same' (n t : Nat) (ht : 1 ≤ t) (rows : List (List α)) (hl : ∀ r ∈ rows, r.length = n) :
    ensembleMean n (renameTrend ((List.replicate t (rows, (none : Option (List α)))).foldl addTrial [])) = rows.map (fun r => r.map (average t)) := by
  rw [foldl_addTrial_none _ (by intro r hr; rw [(List.mem_replicate.1 hr).2]), renameTrend_dictOf, List.map_replicate,
    height_replicate' t ht]
  apply List.ext_getElem
  · simp [ensembleMean, dictOf]
  · intro k h1 h2
    simp only [ensembleMean, dictOf, List.map_map, List.getElem_map, List.getElem_range, Function.comp_apply]
    have h2' : k < rows.length := by simpa using h2
    rw [order_replicate t rows k h2', mean_replicate' n _ (hl _ (List.getElem_mem _)) t]

/-- Without noise, every sample is the computed mean of equal numbers. -/
theorem no_noise (rng : Rng α ρ) (hl : ZeroLaws α) (hz : ZeroScale rng) (fuel : Nat) (sp : SciPy α) (sched : List Nat) (o : Obj α ρ) (S : List α)
    (T : Option (List α)) (m : Int) (hS : S ≠ []) (ht : 1 ≤ o.cfg.trials) (hsep : o.cfg.separateTrends = false)
    (hk : o.cfg.noiseKind ≠ .unknown) (hord : o.cfg.parallel = true → Schedule o.cfg.trials o.cfg.processes sched)
    (h0 : o.cfg.noiseWidth * pyAbs (npMax S - npMin S) = lit 0) :
    (o.eemd rng fuel sp sched S T m).1 = (o.emd.emd fuel sp S T m).1.map (fun rows => rows.map (fun r => r.map (average o.cfg.trials))) := by
  obtain ⟨job, hj⟩ : ∃ job, prepare o.cfg S T m = .ok job := by
    have hl' : S.length ≠ 0 := by simpa using hS
    have he : S.isEmpty = false := by simpa using hS
    unfold prepare
    cases T <;> simp [bind, Except.bind, pure, Except.pure, EMD.timeline, hl', npMaxE, npMinE, he]
  obtain ⟨-, hjS, hjT, hjs, hjm⟩ := prepare_ok hj
  have hsc : job.scale = lit 0 := by
    rw [show job.scale = _ from hjs]
    exact h0
  have hv : vadd S (List.replicate S.length (lit 0)) = S := zipWith_zero' hl S
  have hto : trialOut fuel sp o.cfg.separateTrends o.emd.cfg job (List.replicate job.S.length (lit 0)) =
      match EMD.emdPure fuel sp o.emd.cfg S T m with
      | .error e => .error e
      | .ok R => .ok (R.rows, none) := by
    unfold trialOut
    rw [hjS, hv, hjm, emdPure_timeline' fuel sp o.emd.cfg S T job.T m hS hjT]
    cases EMD.emdPure fuel sp o.emd.cfg S T m with
    | error e => rfl
    | ok R => simp only [hsep, Bool.false_eq_true, if_false]
  have hemd : (o.emd.emd fuel sp S T m).1 =
      match EMD.emdPure fuel sp o.emd.cfg S T m with
      | .error e => .error e
      | .ok R => .ok R.rows := by
    unfold EMD.Obj.emd
    cases EMD.emdPure fuel sp o.emd.cfg S T m <;> rfl
  rw [hemd]
  have hlen : ∀ R, EMD.emdPure fuel sp o.emd.cfg S T m = .ok R → ∀ r ∈ R.rows, r.length = S.length := by
    intro R hR
    have : (EMD.Obj.mk o.emd.cfg none none).emd fuel sp S T m = (.ok R.rows, ⟨o.emd.cfg, some R.imfs, some R.residue⟩) := by
      simp only [EMD.Obj.emd, hR]
    exact (EMD.C02_row_lengths _ _ _ _ _ _ _ _ this).1
  unfold Obj.eemd
  rw [hj]
  dsimp only
  cases hp : o.cfg.parallel with
  | false =>
    simp only [Bool.false_eq_true, if_false]
    obtain ⟨hok, herr⟩ := runTrials_zero' rng hl hz fuel sp o.cfg hk job hsc o.cfg.trials { random := o.random, emd := o.emd } []
    cases hR : EMD.emdPure fuel sp o.emd.cfg S T m with
    | error e =>
      rw [hR] at hto
      obtain ⟨st', d', h⟩ := herr e hto (by omega)
      rw [h]
      rfl
    | ok R =>
      rw [hR] at hto
      obtain ⟨st', h⟩ := hok _ hto
      rw [h]
      simp only [finish]
      rw [mean_same' S.length _ ht _ (hlen R hR)]
      rfl
  | true =>
    simp only [if_true]
    obtain ⟨hpp, hperm⟩ := hord hp
    have hc : chunkSize o.cfg.trials o.cfg.processes ≠ 0 := chunkSize_ne_zero hpp (by omega)
    have hcov : ∀ i < (chunkLengths o.cfg.trials (chunkSize o.cfg.trials o.cfg.processes)).length, i ∈ sched := by
      intro i hi
      rw [chunkLengths_length _ _ (.inl hc), chunkSize_eq _ _ hpp] at hi
      exact hperm.mem_iff.2 (List.mem_range.2 hi)
    have hpos : ∀ n ∈ chunkLengths o.cfg.trials (chunkSize o.cfg.trials o.cfg.processes), 0 < n := by
      intro n hn
      unfold chunkLengths at hn
      rcases List.mem_append.1 hn with hn | hn
      · rw [(List.mem_replicate.1 hn).2]; omega
      · split at hn
        · cases hn
        · rw [List.mem_singleton.1 hn]; omega
    have hsum := chunkLengths_sum o.cfg.trials (chunkSize o.cfg.trials o.cfg.processes) (.inl hc)
    generalize chunkLengths o.cfg.trials (chunkSize o.cfg.trials o.cfg.processes) = lens at hcov hpos hsum
    cases hR : EMD.emdPure fuel sp o.emd.cfg S T m with
    | error e =>
      rw [hR] at hto
      have hall : lens.map (fun n => runChunk rng fuel sp o.cfg job n { random := o.random, emd := o.emd }) =
          lens.map (fun _ => .error e) := by
        apply List.map_congr_left
        intro n hn
        exact (runChunk_zero' rng hl hz fuel sp o.cfg hk job hsc n { random := o.random, emd := o.emd }).2 e hto (hpos n hn)
      have hne : lens ≠ [] := by
        intro h
        rw [h] at hsum
        simp at hsum
        omega
      rw [hall]
      obtain ⟨n, hn⟩ := List.exists_mem_of_ne_nil _ hne
      obtain ⟨e', he', hmem⟩ := poolMap_error (β := List (List α) × Option (List α)) (lens.map (fun _ => .error e)) sched
        (by rw [List.length_map]; exact hcov) e (List.mem_map.2 ⟨n, hn, rfl⟩)
      rw [he']
      obtain ⟨_, -, h⟩ := List.mem_map.1 hmem
      injection h with h
      rw [h]
      rfl
    | ok R =>
      rw [hR] at hto
      have hall : lens.map (fun n => runChunk rng fuel sp o.cfg job n { random := o.random, emd := o.emd }) =
          (lens.map (fun n => List.replicate n (R.rows, (none : Option (List α))))).map .ok := by
        rw [List.map_map]
        apply List.map_congr_left
        intro n hn
        exact (runChunk_zero' rng hl hz fuel sp o.cfg hk job hsc n { random := o.random, emd := o.emd }).1 _ hto
      rw [hall, poolMap_ok _ _ (by rw [List.length_map]; exact hcov)]
      have hflat : (lens.map (fun n => List.replicate n (R.rows, (none : Option (List α))))).flatten =
          List.replicate lens.sum (R.rows, none) := by
        clear hcov hpos hsum hall
        induction lens with
        | nil => rfl
        | cons n lens ih =>
          rw [List.map_cons, List.flatten_cons, ih, List.sum_cons, List.replicate_add]
      rw [hflat, hsum]
      simp only [finish]
      rw [mean_same' S.length _ ht _ (hlen R hR)]
      rfl

end

section
open Ieee
variable {f e E : ℕ}

theorem zeroLaws (hE : 2 ≤ E) : ZeroLaws (Ieee f e E) := by
  refine ⟨fun x => ?_, ?_, ?_⟩
  · rw [Ieee.lit_zero]; exact Ieee.add_zero' x
  · rw [Ieee.lit_zero]
    show num _ _ = num _ _
    congr 1
  · have h2 : (lit 2 : Ieee f e E) = round (2 * 2 ^ e) 1 Nat.one_pos := by
      show round ((2 : ℚ).num * 2 ^ e) (2 : ℚ).den _ = _
      congr 1
    have h3 : rndInt f (2 * 2 ^ e) 1 = 2 * 2 ^ e := rndInt_exact f 2 e (by
      have : 2 ^ 1 ≤ 2 ^ (f + 1) := Nat.pow_le_pow_right (by norm_num) (by omega)
      simpa using this)
    have h4 : ((2 : ℤ) * 2 ^ e).natAbs < 2 ^ (E + e) := by
      rw [Int.natAbs_mul, Int.natAbs_pow]
      show 2 * 2 ^ e < _
      rw [pow_add]
      have : 2 ^ 2 ≤ 2 ^ E := Nat.pow_le_pow_right (by norm_num) hE
      exact Nat.mul_lt_mul_of_pos_right (by omega) (by positivity)
    rw [h2, Ieee.lit_zero]
    unfold Ieee.round
    rw [dif_pos (by rw [h3]; exact h4)]
    show Ieee.div _ _ = _
    unfold Ieee.div
    dsimp only
    have h5 : rndInt f (2 * 2 ^ e) 1 ≠ 0 := by rw [h3]; positivity
    rw [dif_neg h5]
    have : (if rndInt f (2 * 2 ^ e) 1 < 0 then -((0 : ℤ) * 2 ^ e) else 0 * 2 ^ e) = 0 := by simp
    simp only [this]
    unfold Ieee.round
    rw [dif_pos (by rw [rndInt_zero]; simp)]
    congr 1
    exact rndInt_zero f _

/-- The sums of up to `t` copies of the number need no rounding. -/
def ExactSums (t : Nat) : Ieee f e E → Prop
  | num m _ => ∀ k : ℕ, k ≤ t → Rep f e E (k * m)
  | _ => False

theorem average_exact (hE : f + 2 ≤ E) (t : Nat) (h1 : 1 ≤ t) (ht : t ≤ 2 ^ (f + 1)) (x : Ieee f e E) (hx : ExactSums t x) : average t x = x := by
  cases x with
  | nan => exact hx.elim
  | inf s => exact hx.elim
  | num m hm =>
    have hx : ∀ k : ℕ, k ≤ t → Rep f e E (k * m) := hx
    have hround : ∀ (n : ℤ) (h : Rep f e E n), (round n 1 Nat.one_pos : Ieee f e E) = num n h := by
      intro n h
      unfold Ieee.round
      rw [dif_pos (by rw [h.1]; exact h.2)]
      congr 1
      exact h.1
    have hsum : ∀ (k j : ℕ) (hkj : j + k ≤ t), (List.replicate k (num m hm : Ieee f e E)).foldl (· + ·) (num (j * m) (hx j (by omega))) =
        num ((j + k : ℕ) * m) (hx (j + k) hkj) := by
      intro k
      induction k with
      | zero => intro j hkj; rfl
      | succ k ih =>
        intro j hkj
        rw [List.replicate_succ, List.foldl_cons, add_num]
        have hjm : (j : ℤ) * m + m = ((j + 1 : ℕ) : ℤ) * m := by push_cast; ring
        have := hround ((j + 1 : ℕ) * m) (hx (j + 1) (by omega))
        rw [hjm, this, ih (j + 1) (by omega)]
        congr 2
        omega
    have hs := hsum t 0 (by omega)
    unfold average
    have hz : (lit 0 : Ieee f e E) = num ((0 : ℕ) * m) (hx 0 (by omega)) := by
      rw [Ieee.lit_zero]; congr 1; simp
    rw [hz, hs]
    have hrt : Rep f e E (t * 2 ^ e) := by
      refine ⟨rndInt_exact f t e (by simpa using ht), ?_⟩
      rw [Int.natAbs_mul, Int.natAbs_pow, Int.natAbs_natCast]
      show t * 2 ^ e < _
      rw [pow_add]
      have : 2 ^ (f + 2) ≤ 2 ^ E := Nat.pow_le_pow_right (by norm_num) hE
      have h2 : 2 ^ (f + 1) < 2 ^ (f + 2) := Nat.pow_lt_pow_right (by norm_num) (by omega)
      exact Nat.mul_lt_mul_of_pos_right (by omega) (by positivity)
    have hlit : (lit (t : ℚ) : Ieee f e E) = num (t * 2 ^ e) hrt := by
      rw [← hround _ hrt]
      show round ((t : ℚ).num * 2 ^ e) (t : ℚ).den _ = _
      congr 1
    rw [hlit]
    show Ieee.div _ _ = _
    unfold Ieee.div
    dsimp only
    have hpos : (0 : ℤ) < t * 2 ^ e := by positivity
    rw [dif_neg hpos.ne', if_neg (not_lt.2 hpos.le)]
    have hab : ((t : ℤ) * 2 ^ e).natAbs = t * 2 ^ e := by rw [Int.natAbs_mul, Int.natAbs_pow, Int.natAbs_natCast]; rfl
    have key : rndInt f (((0 + t : ℕ) : ℤ) * m * 2 ^ e) ((t : ℤ) * 2 ^ e).natAbs = m := by
      rw [hab]
      have : ((0 + t : ℕ) : ℤ) * m * 2 ^ e = m * ((t * 2 ^ e : ℕ) : ℤ) := by push_cast; ring
      rw [this, rndInt_mul f m _ (by positivity)]
      exact hm.1
    unfold Ieee.round
    rw [dif_pos (by rw [key]; exact hm.2)]
    congr 1

/-- Width zero and a range that does not overflow: noise of width zero. -/
theorem zero_width (x : Ieee f e E) (hx : x.isFinite = true) : (lit 0 : Ieee f e E) * x = lit 0 := by
  obtain ⟨m, hm, rfl⟩ := eq_num hx
  rw [Ieee.lit_zero, mul_num, zero_mul]
  unfold Ieee.round
  rw [dif_pos (by rw [rndInt_zero]; simp)]
  congr 1
  exact rndInt_zero f _

/-- **C153, exact cases**: in IEEE 754 arithmetic `EEMD` with `noise_width = 0` returns exactly what `EMD` returns, exceptions included, if the sums of
up to `trials` copies of the samples of the components need no rounding. -/
theorem C153_exact_partial {ρ : Type} (hE : f + 2 ≤ E) (rng : Rng (Ieee f e E) ρ) (hz : ZeroScale rng) (fuel : Nat) (sp : SciPy (Ieee f e E))
    (sched : List Nat) (o : Obj (Ieee f e E) ρ) (S : List (Ieee f e E)) (T : Option (List (Ieee f e E))) (m : Int) (hS : S ≠ [])
    (ht : 1 ≤ o.cfg.trials) (ht' : o.cfg.trials ≤ 2 ^ (f + 1)) (hsep : o.cfg.separateTrends = false) (hk : o.cfg.noiseKind ≠ .unknown)
    (hord : o.cfg.parallel = true → Schedule o.cfg.trials o.cfg.processes sched) (h0 : o.cfg.noiseWidth = lit 0)
    (hr : (pyAbs (npMax S - npMin S)).isFinite = true)
    (hx : ∀ rows, (o.emd.emd fuel sp S T m).1 = .ok rows → ∀ r ∈ rows, ∀ x ∈ r, ExactSums o.cfg.trials x) :
    (o.eemd rng fuel sp sched S T m).1 = (o.emd.emd fuel sp S T m).1 := by
  rw [no_noise rng (zeroLaws (by omega)) hz fuel sp sched o S T m hS ht hsep hk hord (by rw [h0]; exact zero_width _ hr)]
  cases h : (o.emd.emd fuel sp S T m).1 with
  | error er => rfl
  | ok rows =>
    show Except.ok _ = Except.ok _
    congr 1
    conv_rhs => rw [← List.map_id rows]
    apply List.map_congr_left
    intro r hr
    show _ = r
    conv_rhs => rw [← List.map_id r]
    apply List.map_congr_left
    intro x hxr
    exact average_exact hE _ ht ht' x (hx rows h r hr x hxr)

/-- Two trials are exact unless the sum of the two overflows. -/
theorem exactSums_two (x : Ieee f e E) (h2 : (x + x).isFinite = true) : ExactSums 2 x := by
  obtain ⟨m, hm, rfl⟩ := eq_num (add_finite h2).1
  rw [add_num] at h2
  obtain ⟨h3, -⟩ := round_ok h2
  have hm' : m.natAbs < 2 ^ (E + e) := hm.2
  have hbig : Rep f e (E + 1) (2 * m) := by
    refine rep_double ⟨hm.1, hm'.trans (Nat.pow_lt_pow_right (by norm_num) (by omega))⟩ ?_
    rw [Int.natAbs_mul, show E + 1 + e = (E + e) + 1 by omega, pow_succ]
    show 2 * m.natAbs < _
    omega
  have hd : (2 * m).natAbs < 2 ^ (E + e) := by
    have h4 := h3.2
    rw [show m + m = 2 * m by ring, hbig.1] at h4
    exact h4
  intro k hk
  have : k = 0 ∨ k = 1 ∨ k = 2 := by omega
  rcases this with rfl | rfl | rfl
  · simpa using rep_zero
  · simpa using hm
  · exact rep_double hm hd

/-- **C153 for at most two trials**: no condition on the numbers but that doubling them does not overflow. -/
theorem C153_two_trials {ρ : Type} (hE : f + 2 ≤ E) (rng : Rng (Ieee f e E) ρ) (hz : ZeroScale rng) (fuel : Nat) (sp : SciPy (Ieee f e E))
    (sched : List Nat) (o : Obj (Ieee f e E) ρ) (S : List (Ieee f e E)) (T : Option (List (Ieee f e E))) (m : Int) (hS : S ≠ [])
    (ht : 1 ≤ o.cfg.trials) (ht' : o.cfg.trials ≤ 2) (hsep : o.cfg.separateTrends = false) (hk : o.cfg.noiseKind ≠ .unknown)
    (hord : o.cfg.parallel = true → Schedule o.cfg.trials o.cfg.processes sched) (h0 : o.cfg.noiseWidth = lit 0)
    (hr : (pyAbs (npMax S - npMin S)).isFinite = true)
    (hx : ∀ rows, (o.emd.emd fuel sp S T m).1 = .ok rows → ∀ r ∈ rows, ∀ x ∈ r, (x + x).isFinite = true) :
    (o.eemd rng fuel sp sched S T m).1 = (o.emd.emd fuel sp S T m).1 := by
  have h2 : 2 ^ 1 ≤ 2 ^ (f + 1) := Nat.pow_le_pow_right (by norm_num) (by omega)
  refine C153_exact_partial hE rng hz fuel sp sched o S T m hS ht (by omega) hsep hk hord h0 hr (fun rows hrows r hrr x hxr => ?_)
  have := exactSums_two x (hx rows hrows r hrr x hxr)
  cases x with
  | nan => exact this.elim
  | inf s => exact this.elim
  | num m hm => exact fun k hk => this k (by omega)

/-- The sum of `k` equal numbers, computed from left to right. -/
theorem sum_err {α : Type} [Add α] [Sub α] [Mul α] [Div α] [Neg α] [LT α] [LE α] [NpScalar α] (F : FloatArith α) (x : α) (k : Nat)
    (h : F.finite ((List.replicate k x).foldl (· + ·) (lit 0))) :
    |F.val ((List.replicate k x).foldl (· + ·) (lit 0)) - k * F.val x| ≤ ((1 + F.u) ^ k - 1) * (k * |F.val x|) := by
  induction k with
  | zero => simp [F.zero.2]
  | succ k ih =>
    have e : (List.replicate (k + 1) x).foldl (· + ·) (lit 0) = (List.replicate k x).foldl (· + ·) (lit 0) + x := by
      rw [List.replicate_succ', List.foldl_append]
      rfl
    rw [e] at h ⊢
    obtain ⟨h1, -, h2⟩ := F.add _ _ h
    have h3 := ih h1
    generalize (List.replicate k x).foldl (· + ·) (lit 0) = s at *
    have hu := F.u_nonneg
    have hk : (0 : ℝ) ≤ k := Nat.cast_nonneg k
    have hp : 1 ≤ (1 + F.u) ^ k := one_le_pow₀ (by linarith)
    have h4 : |F.val s + F.val x| ≤ |F.val s - k * F.val x| + (k + 1) * |F.val x| := by
      calc |F.val s + F.val x| = |(F.val s - k * F.val x) + (k + 1) * F.val x| := by congr 1; ring
        _ ≤ |F.val s - k * F.val x| + |(k + 1) * F.val x| := abs_add_le _ _
        _ = _ := by rw [abs_mul, abs_of_nonneg (by linarith : (0 : ℝ) ≤ k + 1)]
    have h5 : |F.val (s + x) - (k + 1) * F.val x| ≤ |F.val (s + x) - (F.val s + F.val x)| + |F.val s - k * F.val x| := by
      calc _ = |(F.val (s + x) - (F.val s + F.val x)) + (F.val s - k * F.val x)| := by congr 1; ring
        _ ≤ _ := abs_add_le _ _
    have h6 := mul_le_mul_of_nonneg_left h4 hu
    have hx := abs_nonneg (F.val x)
    have h7 := mul_le_mul_of_nonneg_left h3 (by linarith : 0 ≤ 1 + F.u)
    push_cast
    rw [pow_succ]
    have h8 : 0 ≤ ((1 + F.u) ^ k - 1) * (1 + F.u) * |F.val x| :=
      mul_nonneg (mul_nonneg (by linarith) (by linarith)) hx
    nlinarith [h2, h5, h6, h7, h8]

/-- The mean of `t` equal numbers, as it is computed, is that number up to `t + 1` roundings. -/
theorem average_err {α : Type} [Add α] [Sub α] [Mul α] [Div α] [Neg α] [LT α] [LE α] [NpScalar α] (F : FloatArith α) (t : Nat) (ht : 1 ≤ t)
    (hf : F.finite (lit (t : ℚ))) (hv : F.val (lit (t : ℚ)) = t) (x : α) (h : F.finite (average t x)) :
    |F.val (average t x) - F.val x| ≤ ((1 + F.u) ^ (t + 1) - 1) * |F.val x| + F.eta := by
  unfold average at *
  obtain ⟨h1, -, h2⟩ := F.div _ _ h hf
  have h3 := sum_err F x t h1
  rw [hv] at h2
  generalize (List.replicate t x).foldl (· + ·) (lit 0) = s at *
  have ht' : (0 : ℝ) < t := by exact_mod_cast ht
  have hu := F.u_nonneg
  have h4 : |F.val s / t - F.val x| ≤ ((1 + F.u) ^ t - 1) * |F.val x| := by
    have : F.val s / t - F.val x = (F.val s - t * F.val x) / t := by field_simp
    rw [this, abs_div, abs_of_pos ht', div_le_iff₀ ht']
    linarith [h3]
  have h5 : |F.val s / t| ≤ |F.val s / t - F.val x| + |F.val x| := by
    calc |F.val s / t| = |(F.val s / t - F.val x) + F.val x| := by congr 1; ring
      _ ≤ _ := abs_add_le _ _
  have h6 : |F.val (s / lit (t : ℚ)) - F.val x| ≤ |F.val (s / lit (t : ℚ)) - F.val s / t| + |F.val s / t - F.val x| := by
    calc _ = |(F.val (s / lit (t : ℚ)) - F.val s / t) + (F.val s / t - F.val x)| := by congr 1; ring
      _ ≤ _ := abs_add_le _ _
  have h7 := mul_le_mul_of_nonneg_left h5 hu
  have h8 := mul_le_mul_of_nonneg_left h4 (by linarith : 0 ≤ 1 + F.u)
  rw [pow_succ]
  nlinarith [h2, h6, h7, h8]

theorem lit_trials (hE : f + 2 ≤ E) (t : Nat) (ht : t ≤ 2 ^ (f + 1)) :
    (lit (t : ℚ) : Ieee f e E).isFinite = true ∧ (lit (t : ℚ) : Ieee f e E).val = t := by
  have hrt : Rep f e E (t * 2 ^ e) := by
    refine ⟨rndInt_exact f t e (by simpa using ht), ?_⟩
    rw [Int.natAbs_mul, Int.natAbs_pow, Int.natAbs_natCast]
    show t * 2 ^ e < _
    rw [pow_add]
    have : 2 ^ (f + 2) ≤ 2 ^ E := Nat.pow_le_pow_right (by norm_num) hE
    have h2 : 2 ^ (f + 1) < 2 ^ (f + 2) := Nat.pow_lt_pow_right (by norm_num) (by omega)
    exact Nat.mul_lt_mul_of_pos_right (by omega) (by positivity)
  have hlit : (lit (t : ℚ) : Ieee f e E) = num (t * 2 ^ e) hrt := by
    show round ((t : ℚ).num * 2 ^ e) (t : ℚ).den _ = _
    have : (round ((t : ℤ) * 2 ^ e) 1 Nat.one_pos : Ieee f e E) = num (t * 2 ^ e) hrt := by
      unfold Ieee.round
      rw [dif_pos (by rw [hrt.1]; exact hrt.2)]
      congr 1
      exact hrt.1
    exact this
  rw [hlit]
  refine ⟨rfl, ?_⟩
  show ((((t : ℤ) * 2 ^ e : ℤ) : ℝ)) / 2 ^ e = t
  push_cast
  field_simp

/-- **C153 for any number of trials**: in IEEE 754 arithmetic `EEMD` with `noise_width = 0` raises what `EMD` raises, and otherwise returns as many rows
as `EMD`, in which every finite sample differs from that of `EMD` by at most `(1 + u)^(trials + 1) - 1` of its magnitude (and half the smallest positive number):
about `(trials + 1) * 1.1e-16` in double precision. -/
theorem C153_bound {ρ : Type} (he : 1 ≤ e) (hE : f + 2 ≤ E) (rng : Rng (Ieee f e E) ρ) (hz : ZeroScale rng) (fuel : Nat) (sp : SciPy (Ieee f e E))
    (sched : List Nat) (o : Obj (Ieee f e E) ρ) (S : List (Ieee f e E)) (T : Option (List (Ieee f e E))) (m : Int) (hS : S ≠ [])
    (ht : 1 ≤ o.cfg.trials) (ht' : o.cfg.trials ≤ 2 ^ (f + 1)) (hsep : o.cfg.separateTrends = false) (hk : o.cfg.noiseKind ≠ .unknown)
    (hord : o.cfg.parallel = true → Schedule o.cfg.trials o.cfg.processes sched) (h0 : o.cfg.noiseWidth = lit 0)
    (hr : (pyAbs (npMax S - npMin S)).isFinite = true) :
    (∀ er, (o.emd.emd fuel sp S T m).1 = .error er → (o.eemd rng fuel sp sched S T m).1 = .error er) ∧
    ∀ rows, (o.emd.emd fuel sp S T m).1 = .ok rows → ∃ E', (o.eemd rng fuel sp sched S T m).1 = .ok E' ∧
      List.Forall₂ (List.Forall₂ (fun x y => y.isFinite = true →
        |y.val - x.val| ≤ ((1 + 1 / 2 ^ (f + 1)) ^ (o.cfg.trials + 1) - 1) * |x.val| + 1 / 2 ^ (e + 1))) rows E' := by
  rw [no_noise rng (zeroLaws (by omega)) hz fuel sp sched o S T m hS ht hsep hk hord (by rw [h0]; exact zero_width _ hr)]
  refine ⟨fun er h => by rw [h]; rfl, fun rows h => ⟨_, by rw [h]; rfl, ?_⟩⟩
  rw [List.forall₂_map_right_iff, List.forall₂_same]
  intro r _
  rw [List.forall₂_map_right_iff, List.forall₂_same]
  intro x _ hx
  obtain ⟨h1, h2⟩ := lit_trials (e := e) hE o.cfg.trials ht'
  exact average_err (Ieee.arith he (by omega)) o.cfg.trials ht h1 h2 x hx

end

/-- A generator of zeros. -/
def zeroRng : Rng F64 Nat where
  normal r _ n := (List.replicate n (lit 0), r)
  uniform r _ _ n := (List.replicate n (lit 0), r)
  seed s := s.toNat

/-- `float64` samples, one of them 1.3333333333333335. -/
def thirds : List F64 := [lit 0, lit (6004799503160662 / 2 ^ 52), lit (-1), lit 2, lit (-2), lit 1, lit 0]

/-- `EEMD` without noise on `float64` samples. -/
def quiet (trials : Nat) : Obj F64 Nat :=
  { cfg := { trials, noiseWidth := lit 0, separateTrends := false, noiseKind := .normal, parallel := false, processes := 1 }
    random := 0, emd := ⟨EMD.Cfg.default, none, none⟩, E_IMF := none, residue := none, allImfs := [] }

/-- The hypotheses of the theorems are met by two trials. -/
example : ZeroScale zeroRng ∧ (pyAbs (npMax thirds - npMin thirds)).isFinite = true ∧
    okWith (fun rows => decide (2 ≤ rows.length) && rows.all (fun r => r.all (fun x => (x + x).isFinite)))
      ((quiet 2).emd.emd 3 linSciPy thirds none 1).1 = true :=
  ⟨⟨fun _ _ => rfl, fun _ _ => rfl⟩, by decide +kernel, by decide +kernel⟩

/-- `C153_bound` with three trials on these samples: the call returns finite numbers, and some differ from those of `EMD`. -/
example : okWith (fun rows => decide (2 ≤ rows.length) && rows.all (fun r => r.all (fun x => x.isFinite)) &&
      okWith (fun rows' => decide (rows' ≠ rows)) ((quiet 3).emd.emd 3 linSciPy thirds none 1).1)
    ((quiet 3).eemd zeroRng 3 linSciPy [] thirds none 1).1 = true ∧ (quiet 3).cfg.trials = 3 ∧ (quiet 3).cfg.noiseWidth = lit 0 ∧ thirds ≠ [] ∧
    (pyAbs (npMax thirds - npMin thirds)).isFinite = true ∧ (3 : ℕ) ≤ 2 ^ (52 + 1) :=
  ⟨by decide +kernel, rfl, rfl, by simp [thirds], by decide +kernel, by norm_num⟩

/-- **C153 is false for three trials**: the mean of three equal `float64` numbers need not be that number, so that `EEMD` without any noise returns for
three constant samples other numbers than `EMD`. -/
theorem C153_three_trials :
    ((quiet 3).emd.emd 3 linSciPy (List.replicate 3 (lit (6004799503160662 / 2 ^ 52))) none (-1)).1 =
      .ok [List.replicate 3 (lit (6004799503160662 / 2 ^ 52))] ∧
    ((quiet 3).eemd zeroRng 3 linSciPy [] (List.replicate 3 (lit (6004799503160662 / 2 ^ 52))) none (-1)).1 =
      .ok [List.replicate 3 (lit (6004799503160661 / 2 ^ 52))] := by
  have h1 : okWith (fun r => decide (r = [List.replicate 3 (lit (6004799503160662 / 2 ^ 52) : F64)]))
      ((quiet 3).emd.emd 3 linSciPy (List.replicate 3 (lit (6004799503160662 / 2 ^ 52))) none (-1)).1 = true := by decide +kernel
  have h2 : okWith (fun r => decide (r = [List.replicate 3 (lit (6004799503160661 / 2 ^ 52) : F64)]))
      ((quiet 3).eemd zeroRng 3 linSciPy [] (List.replicate 3 (lit (6004799503160662 / 2 ^ 52))) none (-1)).1 = true := by decide +kernel
  obtain ⟨E, hE, h1⟩ := okWith_iff.1 h1
  obtain ⟨E', hE', h2⟩ := okWith_iff.1 h2
  rw [hE, hE', of_decide_eq_true h1, of_decide_eq_true h2]
  exact ⟨rfl, rfl⟩

end EEMD
end PyEMD
