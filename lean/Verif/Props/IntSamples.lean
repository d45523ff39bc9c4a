import Verif.Model.IntSamples
import Verif.Lemmas.Exact
import Verif.Spec.EemdSamples
import Verif.Props.Image2

/-!
# C135, C136: signals and images of integers
-/

set_option linter.unusedSectionVars false

namespace PyEMD

namespace IntType.Spec

/-- The values of the type. -/
def Holds : IntType → Int → Prop
  | .signed w, x => 0 < w ∧ -2 ^ (w - 1) ≤ x ∧ x < 2 ^ (w - 1)
  | .unsigned w, x => 0 ≤ x ∧ x < 2 ^ w

/-- `m` is the largest of the samples. -/
def Largest (S : List Int) (m : Int) : Prop := m ∈ S ∧ ∀ x ∈ S, x ≤ m

/-- `m` is the smallest of the samples. -/
def Smallest (S : List Int) (m : Int) : Prop := m ∈ S ∧ ∀ x ∈ S, m ≤ x

/-- The differences of the samples are values of the type: always for an unsigned type. -/
def Narrow : IntType → Int → Prop
  | .signed w, range => range < 2 ^ (w - 1)
  | .unsigned _, _ => True

end IntType.Spec

open IntType IntType.Spec

theorem two_pow_pred {w : Nat} (hw : 0 < w) : (2 : Int) ^ w = 2 * 2 ^ (w - 1) := by
  obtain ⟨k, rfl⟩ : ∃ k, w = k + 1 := ⟨w - 1, by omega⟩
  rw [Nat.add_sub_cancel, pow_succ]; ring

/-- Differences of values of a type, if they fit, are computed exactly. -/
theorem sub_narrow {t : IntType} {a b : Int} (hab : b ≤ a) (ha : Holds t a) (hb : Holds t b) (hn : Narrow t (a - b)) :
    t.sub a b = a - b := by
  cases t with
  | unsigned w =>
    simp only [Holds] at ha hb
    simp only [IntType.sub, IntType.wrap]
    exact Int.emod_eq_of_lt (by omega) (by omega)
  | signed w =>
    simp only [Holds, Narrow] at ha hb hn
    simp only [IntType.sub, IntType.wrap]
    have h2 := two_pow_pred ha.1
    have hp : (0 : Int) < 2 ^ (w - 1) := by positivity
    generalize (2 : Int) ^ (w - 1) = q at *
    rw [h2, Int.emod_eq_of_lt (by omega) (by omega)]
    omega

/-- Differences that do not fit into a signed type are `2 ^ w` too small. -/
theorem sub_wide {w : Nat} {a b : Int} (ha : Holds (.signed w) a) (hb : Holds (.signed w) b) (hn : 2 ^ (w - 1) ≤ a - b) :
    (IntType.signed w).sub a b = a - b - 2 ^ w := by
  simp only [Holds] at ha hb
  simp only [IntType.sub, IntType.wrap]
  have h2 := two_pow_pred ha.1
  have hp : (0 : Int) < 2 ^ (w - 1) := by positivity
  generalize (2 : Int) ^ (w - 1) = q at *
  rw [h2]
  have : a - b + q = (a - b - q) + 2 * q := by ring
  rw [this, Int.add_emod_right, Int.emod_eq_of_lt (by omega) (by omega)]
  omega

theorem abs_fits {t : IntType} {x : Int} (h : Holds t |x|) : t.abs x = |x| := by
  have := sub_narrow (t := t) (a := |x|) (b := 0) (abs_nonneg x) h (by
    cases t with
    | signed w => exact ⟨h.1, by simp, by positivity⟩
    | unsigned w => exact ⟨le_rfl, by positivity⟩) (by
    cases t with
    | signed w => simp only [Holds, Narrow] at h ⊢; simpa using h.2.2
    | unsigned w => simp only [Narrow])
  simpa [IntType.sub, IntType.abs] using this

/-- `np.abs` of the smallest number of a signed type. -/
theorem abs_lowest {w : Nat} (hw : 0 < w) : (IntType.signed w).abs (-2 ^ (w - 1)) = -2 ^ (w - 1) := by
  have h2 := two_pow_pred hw
  have hp : (0 : Int) < 2 ^ (w - 1) := by positivity
  simp only [IntType.abs, IntType.wrap]
  rw [h2, abs_neg, abs_of_pos hp, ← two_mul, Int.emod_self]
  omega

theorem foldl_max_int (l : List Int) : ∀ a : Int, (l.foldl max a = a ∨ l.foldl max a ∈ l) ∧ a ≤ l.foldl max a ∧
    ∀ x ∈ l, x ≤ l.foldl max a := by
  induction l with
  | nil => intro a; simp
  | cons b l ih =>
    intro a
    obtain ⟨h1, h2, h3⟩ := ih (max a b)
    simp only [List.foldl_cons, List.mem_cons]
    refine ⟨?_, le_trans (le_max_left _ _) h2, ?_⟩
    · rcases h1 with h | h
      · rcases max_choice a b with h' | h' <;> rw [h, h'] <;> simp
      · exact .inr (.inr h)
    · rintro x (rfl | hx)
      · exact le_trans (le_max_right _ _) h2
      · exact h3 x hx

theorem foldl_min_int (l : List Int) : ∀ a : Int, (l.foldl min a = a ∨ l.foldl min a ∈ l) ∧ l.foldl min a ≤ a ∧
    ∀ x ∈ l, l.foldl min a ≤ x := by
  induction l with
  | nil => intro a; simp
  | cons b l ih =>
    intro a
    obtain ⟨h1, h2, h3⟩ := ih (min a b)
    simp only [List.foldl_cons, List.mem_cons]
    refine ⟨?_, le_trans h2 (min_le_left _ _), ?_⟩
    · rcases h1 with h | h
      · rcases min_choice a b with h' | h' <;> rw [h, h'] <;> simp
      · exact .inr (.inr h)
    · rintro x (rfl | hx)
      · exact le_trans h2 (min_le_right _ _)
      · exact h3 x hx

theorem intMax_ok {S : List Int} {m : Int} (h : Largest S m) : intMax S = .ok m := by
  cases S with
  | nil => exact absurd h.1 (by simp)
  | cons a l =>
    obtain ⟨h1, h2, h3⟩ := foldl_max_int l a
    simp only [intMax, Except.ok.injEq]
    apply le_antisymm
    · apply h.2
      rcases h1 with h' | h' <;> simp [h']
    · rcases List.mem_cons.1 h.1 with h' | h'
      · rw [h']; exact h2
      · exact h3 m h'

theorem intMin_ok {S : List Int} {m : Int} (h : Smallest S m) : intMin S = .ok m := by
  cases S with
  | nil => exact absurd h.1 (by simp)
  | cons a l =>
    obtain ⟨h1, h2, h3⟩ := foldl_min_int l a
    simp only [intMin, Except.ok.injEq]
    apply le_antisymm
    · rcases List.mem_cons.1 h.1 with h' | h'
      · rw [h']; exact h2
      · exact h3 m h'
    · apply h.2
      rcases h1 with h' | h' <;> simp [h']

theorem exists_largest {S : List Int} (h : S ≠ []) : ∃ m, Largest S m := by
  cases S with
  | nil => exact absurd rfl h
  | cons a l =>
    obtain ⟨h1, h2, h3⟩ := foldl_max_int l a
    refine ⟨l.foldl max a, ?_, fun x hx => ?_⟩
    · rcases h1 with h' | h' <;> simp [h']
    · rcases List.mem_cons.1 hx with h' | h'
      · rw [h']; exact h2
      · exact h3 x h'

theorem exists_smallest {S : List Int} (h : S ≠ []) : ∃ m, Smallest S m := by
  cases S with
  | nil => exact absurd rfl h
  | cons a l =>
    obtain ⟨h1, h2, h3⟩ := foldl_min_int l a
    refine ⟨l.foldl min a, ?_, fun x hx => ?_⟩
    · rcases h1 with h' | h' <;> simp [h']
    · rcases List.mem_cons.1 hx with h' | h'
      · rw [h']; exact h2
      · exact h3 x h'

section Exact
variable {K : Type} [Field K] [LinearOrder K] [IsStrictOrderedRing K] [FloorRing K]

theorem ofInt_eq (k : Int) : (ofInt k : K) = (k : K) := by simp [ofInt, lit_eq]

theorem npMaxE_ofInt {S : List Int} {m : Int} (h : Largest S m) : npMaxE (S.map (ofInt (α := K))) = .ok (m : K) := by
  have hne : S.map (ofInt (α := K)) ≠ [] := by
    intro e; rw [List.map_eq_nil_iff] at e; rw [e] at h; exact absurd h.1 (by simp)
  unfold npMaxE
  rw [if_neg (by simpa using hne)]
  obtain ⟨h1, h2⟩ := npMax_spec hne
  simp only [Except.ok.injEq]
  obtain ⟨x, hx, he⟩ := List.mem_map.1 h1
  apply le_antisymm
  · rw [← he, ofInt_eq]; exact_mod_cast h.2 x hx
  · rw [← ofInt_eq]; exact h2 _ (List.mem_map.2 ⟨m, h.1, rfl⟩)

theorem npMinE_ofInt {S : List Int} {m : Int} (h : Smallest S m) : npMinE (S.map (ofInt (α := K))) = .ok (m : K) := by
  have hne : S.map (ofInt (α := K)) ≠ [] := by
    intro e; rw [List.map_eq_nil_iff] at e; rw [e] at h; exact absurd h.1 (by simp)
  unfold npMinE
  rw [if_neg (by simpa using hne)]
  obtain ⟨h1, h2⟩ := npMin_spec hne
  simp only [Except.ok.injEq]
  obtain ⟨x, hx, he⟩ := List.mem_map.1 h1
  apply le_antisymm
  · rw [← ofInt_eq]; exact h2 _ (List.mem_map.2 ⟨m, h.1, rfl⟩)
  · rw [← he, ofInt_eq]; exact_mod_cast h.2 x hx

namespace EEMD

variable {ρ : Type}

/-- The range of the samples that `np.abs(np.max(S) - np.min(S))` gives: `r`, or for a signed type of `w` bits and
`r ≥ 2 ^ (w - 1)` what is left of it to `2 ^ w`, and `-2 ^ (w - 1)` for `r = 2 ^ (w - 1)`. -/
def Spec.Seen : IntType → Int → Int
  | .unsigned _, r => r
  | .signed w, r => if r < 2 ^ (w - 1) then r else if r = 2 ^ (w - 1) then -r else 2 ^ w - r

theorem abs_sub_seen {t : IntType} {mx mn : Int} (hle : mn ≤ mx) (hx : Holds t mx) (hn : Holds t mn) :
    t.abs (t.sub mx mn) = Spec.Seen t (mx - mn) := by
  cases t with
  | unsigned w =>
    rw [sub_narrow hle hx hn trivial, abs_fits, abs_of_nonneg (by omega)]
    · rfl
    · rw [abs_of_nonneg (by omega)]
      simp only [Holds] at *
      omega
  | signed w =>
    have h2 := two_pow_pred hx.1
    have hp : (0 : Int) < 2 ^ (w - 1) := by positivity
    simp only [Spec.Seen]
    by_cases h : mx - mn < 2 ^ (w - 1)
    · rw [if_pos h, sub_narrow hle hx hn h, abs_fits, abs_of_nonneg (by omega)]
      rw [abs_of_nonneg (by omega)]
      exact ⟨hx.1, by omega, h⟩
    · rw [if_neg h, sub_wide hx hn (by omega)]
      by_cases h' : mx - mn = 2 ^ (w - 1)
      · rw [if_pos h', h']
        have : (2 : Int) ^ (w - 1) - 2 ^ w = -2 ^ (w - 1) := by rw [h2]; ring
        rw [this, abs_lowest hx.1]
      · rw [if_neg h']
        simp only [Holds] at hx hn
        rw [abs_fits, abs_of_neg (by omega)]
        · ring
        · rw [abs_of_neg (by omega)]
          exact ⟨hx.1, by omega, by omega⟩

/-- **C135** (the noise) The noise added to integer samples is scaled by `noise_width` times the range of the samples as the integer
type has it (`Seen`). -/
theorem C135_scale (t : IntType) (cfg : Cfg K) (S : List Int) (T : Option (List K)) (maxImf : Int) (mx mn : Int)
    (hS : ∀ x ∈ S, Holds t x) (hmx : Largest S mx) (hmn : Smallest S mn) (job : Job K)
    (h : prepareInt t cfg S T maxImf = .ok job) : job.scale = cfg.noiseWidth * (Spec.Seen t (mx - mn) : Int) := by
  have hle : mn ≤ mx := hmn.2 _ hmx.1
  have hs := abs_sub_seen hle (hS _ hmx.1) (hS _ hmn.1)
  unfold prepareInt at h
  rw [intMax_ok hmx, intMin_ok hmn] at h
  rw [← hs, ← ofInt_eq]
  cases T with
  | some T => simp only [bind, Except.bind, pure, Except.pure, Except.ok.injEq] at h; rw [← h]
  | none =>
    simp only [bind, Except.bind, pure, Except.pure] at h
    split at h
    · cases h
    · simp only [Except.ok.injEq] at h; rw [← h]

/-- The noise of int16 samples from -30000 to 30000 is scaled as if their range was 5536. -/
example : (∀ x ∈ [-30000, 12000, 30000, 0], Holds (.signed 16) x) ∧ Largest [-30000, 12000, 30000, 0] 30000 ∧
    Smallest [-30000, 12000, 30000, 0] (-30000) ∧ Spec.Seen (.signed 16) (30000 - -30000) = 5536 ∧
    okWith (fun job => decide (job.scale = 1384)) (prepareInt (.signed 16) sampleCfg [-30000, 12000, 30000, 0] none (-1)) = true := by
  refine ⟨?_, ?_, ?_, by decide, by decide +kernel⟩ <;> simp [Holds, Largest, Smallest]

theorem prepareInt_eq (t : IntType) (cfg : Cfg K) (S : List Int) (T : Option (List K)) (maxImf : Int)
    (hS : ∀ x ∈ S, Holds t x) (hn : ∀ x ∈ S, ∀ y ∈ S, Narrow t (x - y)) :
    prepareInt t cfg S T maxImf = prepare cfg (S.map ofInt) T maxImf := by
  by_cases hne : S = []
  · subst hne; rfl
  · obtain ⟨mx, hmx⟩ := exists_largest hne
    obtain ⟨mn, hmn⟩ := exists_smallest hne
    have hle : mn ≤ mx := hmn.2 _ hmx.1
    have hs := abs_sub_seen hle (hS _ hmx.1) (hS _ hmn.1)
    have hsn : Spec.Seen t (mx - mn) = mx - mn := by
      cases t with
      | unsigned w => rfl
      | signed w => simp only [Spec.Seen]; rw [if_pos]; exact hn _ hmx.1 _ hmn.1
    unfold prepareInt prepare
    rw [intMax_ok hmx, intMin_ok hmn, npMaxE_ofInt hmx, npMinE_ofInt hmn, List.length_map]
    simp only [bind, Except.bind, pure, Except.pure, hs, hsn]
    have : (ofInt (mx - mn) : K) = pyAbs ((mx : K) - (mn : K)) := by
      rw [ofInt_eq, pyAbs_eq, abs_of_nonneg]
      · push_cast; ring
      · rw [sub_nonneg]; exact_mod_cast hle
    rw [this]
    cases T <;> rfl

theorem prepare_scale_nonneg {cfg : Cfg K} {S : List K} {T : Option (List K)} {maxImf : Int} {job : Job K}
    (hc : 0 ≤ cfg.noiseWidth) (h : prepare cfg S T maxImf = .ok job) : 0 ≤ job.scale := by
  have key : ∀ (T' : List K), (do
      let mx ← npMaxE S
      let mn ← npMinE S
      return { S, T := T', scale := cfg.noiseWidth * pyAbs (mx - mn), maxImf } : PyM (Job K)) = .ok job → 0 ≤ job.scale := by
    intro T' h
    obtain ⟨mx, -, h⟩ := bind_eq_ok.1 h
    obtain ⟨mn, -, h⟩ := bind_eq_ok.1 h
    rw [← pure_eq_ok.1 h, pyAbs_eq]
    exact mul_nonneg hc (abs_nonneg _)
  unfold prepare at h
  cases T with
  | some T => exact key T h
  | none =>
    obtain ⟨T', -, h⟩ := bind_eq_ok.1 h
    exact key T' h

/-- C135, what holds: integer samples are decomposed like the same numbers as floats if the differences of the samples are values of
their type: always for unsigned types; for a signed type of `w` bits if the samples span less than `2 ^ (w - 1)`.  Same result, same
exception, same object afterwards.  Missing: signed samples that span more (`C135_scale`, `C135_refused`). -/
theorem C135_partial (rng : Rng K ρ) (fuel : Nat) (sp : SciPy K) (order : List Nat) (o : Obj K ρ) (t : IntType) (S : List Int)
    (T : Option (List K)) (maxImf : Int) (hc : 0 ≤ o.cfg.noiseWidth) (hS : ∀ x ∈ S, Holds t x)
    (hn : ∀ x ∈ S, ∀ y ∈ S, Narrow t (x - y)) :
    o.eemdInt rng fuel sp order t S T maxImf = o.eemd rng fuel sp order (S.map ofInt) T maxImf := by
  unfold Obj.eemdInt Obj.eemd
  rw [prepareInt_eq t o.cfg S T maxImf hS hn]
  cases h : prepare o.cfg (S.map ofInt) T maxImf with
  | error e => rfl
  | ok job =>
    have h0 := prepare_scale_nonneg hc h
    simp only
    have hno : ¬ (o.cfg.noiseKind = .normal ∧ job.scale < lit 0 ∧ 0 < o.cfg.trials) := by
      rw [lit_zero]
      rintro ⟨-, h1, -⟩
      exact absurd h1 (not_lt.2 h0)
    rw [if_neg hno]
    rfl

example : (∀ x ∈ [(0 : Int), 60, -20, 40, -40, 20, 0], Holds (.signed 8) x) ∧
    (∀ x ∈ [(0 : Int), 60, -20, 40, -40, 20, 0], ∀ y ∈ [(0 : Int), 60, -20, 40, -40, 20, 0], Narrow (.signed 8) (x - y)) ∧
    okWith (fun R => R.length == 2) ((sampleObj sampleCfg).eemdInt sampleRng 20 linSciPy [] (.signed 8) [0, 60, -20, 40, -40, 20, 0] none
      (-1)).1 = true := by
  refine ⟨?_, ?_, by decide +kernel⟩ <;> simp [Holds, Narrow]

/-- **C135** (refused) Samples of a signed type of `w` bits that span exactly `2 ^ (w - 1)` - int16 samples from -16384 to 16384, say -
are never decomposed with the default noise: `np.abs` returns a negative number, and `RandomState.normal` raises `ValueError`. -/
theorem C135_refused (rng : Rng K ρ) (fuel : Nat) (sp : SciPy K) (order : List Nat) (o : Obj K ρ) (w : Nat) (S : List Int)
    (T : Option (List K)) (maxImf : Int) (mx mn : Int) (hS : ∀ x ∈ S, Holds (.signed w) x) (hmx : Largest S mx)
    (hmn : Smallest S mn) (hr : mx - mn = 2 ^ (w - 1)) (hc : 0 < o.cfg.noiseWidth) (hk : o.cfg.noiseKind = .normal)
    (ht : 0 < o.cfg.trials) :
    (o.eemdInt rng fuel sp order (.signed w) S T maxImf).1 = .error .valueError := by
  unfold Obj.eemdInt
  cases h : prepareInt (.signed w) o.cfg S T maxImf with
  | error e =>
    exfalso
    have hne : S.length ≠ 0 := by
      intro e; rw [List.length_eq_zero_iff] at e; rw [e] at hmx; exact absurd hmx.1 (by simp)
    unfold prepareInt EMD.timeline at h
    rw [intMax_ok hmx, intMin_ok hmn, if_neg hne] at h
    cases T <;> simp [bind, Except.bind, pure, Except.pure] at h
  | ok job =>
    have hs := C135_scale (.signed w) o.cfg S T maxImf mx mn hS hmx hmn job h
    have hp : (0 : Int) < 2 ^ (w - 1) := by positivity
    have hneg : job.scale < 0 := by
      rw [hs, hr]
      simp only [Spec.Seen, lt_irrefl, if_false, if_true]
      apply mul_neg_of_pos_of_neg hc
      exact_mod_cast (by omega : -(2 : Int) ^ (w - 1) < 0)
    simp only
    rw [if_pos ⟨hk, by rw [lit_zero]; exact hneg, ht⟩]

/-- int8 samples from -64 to 64. -/
example : (∀ x ∈ [(0 : Int), 64, -20, 40, -64, 20, 0], Holds (.signed 8) x) ∧ Largest [0, 64, -20, 40, -64, 20, 0] 64 ∧
    Smallest [0, 64, -20, 40, -64, 20, 0] (-64) ∧ (64 : Int) - -64 = 2 ^ (8 - 1) ∧ 0 < sampleCfg.noiseWidth ∧ sampleCfg.noiseKind = .normal ∧
    0 < sampleCfg.trials := by
  refine ⟨?_, ?_, ?_, by decide, by decide +kernel, rfl, by decide⟩ <;> simp [Holds, Largest, Smallest]

/-- C135, counterexample for the full claim: int8 samples and the same numbers as floats give different components. -/
theorem C135_counterexample :
    (match ((sampleObj sampleCfg).eemdInt sampleRng 20 linSciPy [] (.signed 8) [0, 100, -20, 40, -100, 20, 0] none (-1)).1,
        ((sampleObj sampleCfg).eemd sampleRng 20 linSciPy [] [0, 100, -20, 40, -100, 20, 0] none (-1)).1 with
      | .ok R, .ok R' => R != R'
      | _, _ => false) = true := by
  decide +kernel

end EEMD

namespace EMD2D

open Img Img.Spec CEEMDAN

theorem ofIntImg_shape {image : Img Int} (hw : image.data.length = image.rows * image.cols) :
    HasShape (ofIntImg (α := K) image) image.rows image.cols := ⟨by unfold WF ofIntImg; simpa using hw, rfl, rfl⟩

/-- C136, what holds: an image of integers is decomposed like the same numbers as floats if the differences of its pixels are values
of their type: always for unsigned types (photographs); for a signed type of `w` bits if the pixels span less than `2 ^ (w - 1)`.
Missing: signed images that span more (`C136_brightest`). -/
theorem C136_partial (sbs : Surface K) (fuel : Nat) (cfg : Cfg2 K) (t : IntType) (image : Img Int) (maxImf : Int)
    (hS : ∀ x ∈ image.data, Holds t x) (hn : ∀ x ∈ image.data, ∀ y ∈ image.data, Narrow t (x - y)) :
    emdInt sbs fuel cfg t image maxImf = emd sbs fuel cfg (ofIntImg image) maxImf := by
  by_cases hne : image.data = []
  · unfold emdInt emd ofIntImg
    rw [hne]
    rfl
  · obtain ⟨mx, hmx⟩ := exists_largest hne
    obtain ⟨mn, hmn⟩ := exists_smallest hne
    have hle : mn ≤ mx := hmn.2 _ hmx.1
    have hs := sub_narrow hle (hS _ hmx.1) (hS _ hmn.1) (hn _ hmx.1 _ hmn.1)
    have hpx : ∀ x ∈ image.data, t.sub x mn = x - mn := fun x hx =>
      sub_narrow (hmn.2 x hx) (hS x hx) (hS _ hmn.1) (hn x hx _ hmn.1)
    have e1 : (ofInt (mx - mn) : K) = (mx : K) - (mn : K) := by rw [ofInt_eq]; push_cast; ring
    have e2 : image.data.map (fun x => (((t.sub x mn : Int) : K) / ((mx : K) - (mn : K)) : K)) =
        (image.data.map (ofInt (α := K))).map (fun x => (x - (mn : K)) / ((mx : K) - (mn : K))) := by
      rw [List.map_map]
      apply List.map_congr_left
      intro x hx
      simp only [Function.comp, hpx x hx, ofInt_eq]
      push_cast
      rfl
    unfold emdInt emd
    have n1 : npMinE (ofIntImg (α := K) image).data = .ok (mn : K) := npMinE_ofInt hmn
    have n2 : npMaxE (ofIntImg (α := K) image).data = .ok (mx : K) := npMaxE_ofInt hmx
    rw [intMax_ok hmx, intMin_ok hmn, n1, n2]
    simp only [bind, Except.bind, hs, e1]
    simp only [ofInt_eq, e2]
    rfl

/-- A chess board of bytes. -/
def byteBoard (lo hi : Int) : Img Int :=
  { rows := 7, cols := 7, data := (List.range 7).flatMap (fun r => (List.range 7).map (fun c => if (r + c) % 2 = 0 then hi else lo)) }

example : (∀ x ∈ (byteBoard 0 255).data, Holds (.unsigned 8) x) ∧
    (∀ x ∈ (byteBoard 0 255).data, ∀ y ∈ (byteBoard 0 255).data, Narrow (.unsigned 8) (x - y)) ∧
    okWith (fun out => decide (out.length = 3)) (emdInt flatSurface 2 Cfg.default (.unsigned 8) (byteBoard 0 255) 2) = true :=
  ⟨by unfold Holds; decide, fun _ _ _ _ => trivial, by decide +kernel⟩

/-- The range of the image as its integer type has it: `r`, or `r - 2 ^ w` (negative) for a signed type of `w` bits and
`r ≥ 2 ^ (w - 1)`. -/
def Spec.Seen : IntType → Int → Int
  | .unsigned _, r => r
  | .signed w, r => if r < 2 ^ (w - 1) then r else r - 2 ^ w

theorem sub_seen {t : IntType} {a b : Int} (hle : b ≤ a) (ha : Holds t a) (hb : Holds t b) : t.sub a b = Spec.Seen t (a - b) := by
  cases t with
  | unsigned w => rw [sub_narrow hle ha hb trivial]; rfl
  | signed w =>
    simp only [Spec.Seen]
    by_cases h : a - b < 2 ^ (w - 1)
    · rw [if_pos h, sub_narrow hle ha hb h]
    · rw [if_neg h, sub_wide ha hb (by omega)]

/-- **C136** (the sum) All components of an image of integers have its shape.  At a pixel `x` they add up to `mn + Seen (x - mn)` -
`x` itself, or `x - 2 ^ w` - up to `1e-8` of the range of the image. -/
theorem C136_adds_up (sbs : Surface K) (fuel : Nat) (cfg : Cfg2 K) (t : IntType) (image : Img Int) (maxImf : Int)
    (out : List (Img K)) (hw : image.data.length = image.rows * image.cols) (hS : ∀ x ∈ image.data, Holds t x) (mn mx : Int)
    (hmn : Smallest image.data mn) (hmx : Largest image.data mx) (h : emdInt sbs fuel cfg t image maxImf = .ok out) :
    (∀ im ∈ out, HasShape im image.rows image.cols) ∧
    ∀ i < image.data.length, |((mn + Spec.Seen t (image.data.getD i 0 - mn) : Int) : K) - (out.map (fun im => im.data.getD i 0)).sum| ≤
      1 / 100000000 * |((Spec.Seen t (mx - mn) : Int) : K)| := by
  have hI := ofIntImg_shape (K := K) hw
  unfold emdInt at h
  rw [intMax_ok hmx, intMin_ok hmn] at h
  have hle : mn ≤ mx := hmn.2 _ hmx.1
  simp only [bind, Except.bind, pure, Except.pure, sub_seen hle (hS _ hmx.1) (hS _ hmn.1), ofInt_eq] at h
  generalize hsc : ((Spec.Seen t (mx - mn) : Int) : K) = sc at *
  split at h
  · cases h
  · rename_i hz
    have hsc' : sc ≠ 0 := by simpa using hz
    have hd : image.data.map (fun x => ((t.sub x mn : Int) : K) / sc) =
        image.data.map (fun x => ((Spec.Seen t (x - mn) : Int) : K) / sc) := by
      apply List.map_congr_left
      intro x hx
      rw [sub_seen (hmn.2 x hx) (hS x hx) (hS _ hmn.1)]
    rw [hd] at h
    generalize hims : ({ rows := image.rows, cols := image.cols, data := image.data.map (fun x => ((Spec.Seen t (x - mn) : Int) : K) / sc) } :
      Img K) = ims at *
    have hS' : HasShape ims image.rows image.cols := by
      rw [← hims]; exact ⟨by unfold WF; simpa using hw, rfl, rfl⟩
    cases hl : loop sbs cfg (ofIntImg image) ims maxImf fuel [] with
    | error e => rw [hl] at h; simp at h
    | ok comps =>
      rw [hl] at h
      simp only [Except.ok.injEq] at h
      obtain ⟨hsh, hlen, -⟩ := loop_ok hI hS' hl (by simp)
      have hcne : comps ≠ [] := by rintro rfl; simp at hlen
      have hsum := HasShape.sum image.rows image.cols comps hsh
      have hres := hS'.sub hsum
      generalize hr : ims.sub (Img.sum image.rows image.cols comps) = res at *
      have hresi : ∀ i < image.data.length, res.data.getD i 0 =
          ((Spec.Seen t (image.data.getD i 0 - mn) : Int) : K) / sc - (comps.map (fun im => im.data.getD i 0)).sum := by
        intro i hi
        rw [← hr]
        simp only [Img.sub]
        rw [vsub_getD _ _ _ (by rw [hS'.length, ← hw]; exact hi) (by rw [hsum.length, ← hw]; exact hi),
          img_sum_getD _ _ _ hsh i (by rw [← hw]; exact hi), ← hims]
        congr 1
        simp [List.getD, hi]
      have fin : ∀ l : List (Img K), l ≠ [] → (∀ im ∈ l, HasShape im image.rows image.cols) → ∀ i < image.data.length,
          ((addLast (mn : K) (l.map (fun im => im.map (fun x => x * sc)))).map (fun im => im.data.getD i 0)).sum =
            (l.map (fun im => im.data.getD i 0)).sum * sc + mn := by
        intro l hlne hlsh i hi
        rw [addLast_sum (mn : K) _ (by simpa using hlne) image.data.length (by
          simp only [List.mem_map]
          rintro _ ⟨im, him, rfl⟩
          rw [((hlsh im him).map _).length, hw]) i hi,
          scaled_sum _ _ image.data.length (fun im him => by rw [(hlsh im him).length, hw]) i hi]
      have shp : ∀ l : List (Img K), (∀ im ∈ l, HasShape im image.rows image.cols) →
          ∀ im ∈ addLast (mn : K) (l.map (fun im => im.map (fun x => x * sc))), HasShape im image.rows image.cols := by
        intro l hlsh
        apply addLast_shape
        simp only [List.mem_map]
        rintro _ ⟨im, him, rfl⟩
        exact (hlsh im him).map _
      split at h
      · rename_i hv
        rw [← h]
        refine ⟨shp _ hsh, ?_⟩
        intro i hi
        rw [fin comps hcne hsh i hi]
        have hv' := (EMD.allclose0_iff _).1 hv
        have hmem : res.data.getD i 0 ∈ res.data := by
          rw [getD_lt _ _ (by rw [hres.length, ← hw]; exact hi)]
          exact List.getElem_mem _
        have h1 := hv' _ hmem
        rw [pyAbs_eq, hresi i hi, lit_eq] at h1
        generalize Spec.Seen t (image.data.getD i 0 - mn) = y at *
        have e : ((mn + y : Int) : K) - ((comps.map (fun im => im.data.getD i 0)).sum * sc + mn) =
            ((y : K) / sc - (comps.map (fun im => im.data.getD i 0)).sum) * sc := by
          push_cast
          field_simp
          ring
        rw [e, abs_mul]
        apply mul_le_mul_of_nonneg_right _ (abs_nonneg _)
        norm_num at h1 ⊢
        exact h1
      · rw [← h]
        have hall : ∀ im ∈ comps ++ [res], HasShape im image.rows image.cols := by
          intro im him
          rcases List.mem_append.1 him with h1 | h1
          · exact hsh im h1
          · rw [List.mem_singleton.1 h1]; exact hres
        refine ⟨shp _ hall, ?_⟩
        intro i hi
        rw [fin _ (by simp) hall i hi, List.map_append, List.sum_append]
        simp only [List.map_cons, List.map_nil, List.sum_cons, List.sum_nil, add_zero]
        rw [hresi i hi]
        generalize Spec.Seen t (image.data.getD i 0 - mn) = y at *
        have e : ((mn + y : Int) : K) - (((comps.map (fun im => im.data.getD i 0)).sum +
            ((y : K) / sc - (comps.map (fun im => im.data.getD i 0)).sum)) * sc + mn) = 0 := by
          push_cast
          field_simp
          ring
        rw [e, abs_zero]
        positivity

/-- **C136** (counterexample for every wide image) If the pixels of a signed type of `w` bits span `2 ^ (w - 1)` or more, the
components do not add up to the image: at its brightest pixels they miss `2 ^ w`, up to `1e-8` of `2 ^ (w - 1)`. -/
theorem C136_brightest (sbs : Surface K) (fuel : Nat) (cfg : Cfg2 K) (w : Nat) (image : Img Int) (maxImf : Int)
    (out : List (Img K)) (hw : image.data.length = image.rows * image.cols) (hS : ∀ x ∈ image.data, Holds (.signed w) x) (mn mx : Int)
    (hmn : Smallest image.data mn) (hmx : Largest image.data mx) (hr : 2 ^ (w - 1) ≤ mx - mn)
    (h : emdInt sbs fuel cfg (.signed w) image maxImf = .ok out) (i : Nat) (hi : i < image.data.length)
    (hb : image.data.getD i 0 = mx) :
    |(mx : K) - 2 ^ w - (out.map (fun im => im.data.getD i 0)).sum| ≤ 1 / 100000000 * 2 ^ (w - 1) := by
  have h1 := (C136_adds_up sbs fuel cfg (.signed w) image maxImf out hw hS mn mx hmn hmx h).2 i hi
  have hx := hS _ hmx.1
  have hn := hS _ hmn.1
  have h2 := two_pow_pred hx.1
  rw [hb] at h1
  simp only [Spec.Seen] at h1
  rw [if_neg (by omega)] at h1
  have e : ((mn + (mx - mn - 2 ^ w) : Int) : K) = (mx : K) - 2 ^ w := by push_cast; ring
  rw [e] at h1
  refine le_trans h1 ?_
  apply mul_le_mul_of_nonneg_left _ (by norm_num)
  rw [← Int.cast_abs]
  simp only [Holds] at hx hn
  have h3 : |mx - mn - 2 ^ w| ≤ 2 ^ (w - 1) := by rw [abs_le]; constructor <;> omega
  exact_mod_cast h3

/-- int8 pixels -100 and 100: the components add up to -100 where the image is -100, and to 100 - 256 where it is 100. -/
example : (byteBoard (-100) 100).data.length = (byteBoard (-100) 100).rows * (byteBoard (-100) 100).cols ∧
    (∀ x ∈ (byteBoard (-100) 100).data, Holds (.signed 8) x) ∧ Smallest (byteBoard (-100) 100).data (-100) ∧
    Largest (byteBoard (-100) 100).data 100 ∧ (2 : Int) ^ (8 - 1) ≤ 100 - -100 ∧ (byteBoard (-100) 100).data.getD 0 0 = 100 ∧
    okWith (fun out => decide ((out.map (fun im => im.data.getD 0 0)).sum = -156) && decide ((out.map (fun im => im.data.getD 1 0)).sum = -100))
      (emdInt flatSurface 2 Cfg.default (.signed 8) (byteBoard (-100) 100) 2) = true :=
  ⟨by decide, by unfold Holds; decide, by unfold Smallest; decide, by unfold Largest; decide, by decide, by decide, by decide +kernel⟩

end EMD2D
end Exact
end PyEMD
