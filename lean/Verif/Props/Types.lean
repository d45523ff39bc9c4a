import Verif.Model.Types
import Verif.Props.Utils
import Verif.Lemmas.Exact
import Verif.Props.EmdExact

/-!
# C112: the type of the samples does not matter to `EMD`
-/

set_option linter.unusedSectionVars false
set_option exponentiation.threshold 1100

namespace PyEMD
namespace Types
open Utils

theorem unify_type (cast : DType → ℚ → ℚ) (x y : Arr) :
    (unifyTypes cast x y).1.dtype = deduceCommonType x.dtype y.dtype := by
  simp only [unifyTypes]
  split
  · rfl
  next h => exact not_not.1 h

theorem mapM_some (n : Nat) : (enumeration n).mapM id = some ((List.range n).map (fun i : Nat => (i : Int))) := by
  unfold enumeration
  generalize List.range n = l
  induction l with
  | nil => rfl
  | cons a l ih => simp only [List.map_cons, List.mapM_cons, ih]; rfl

theorem apart_enumeration (n : Nat) : ((enumeration n).zip (enumeration n).tail).all (fun p => apart p.1 p.2) = true := by
  rw [List.all_eq_true]
  intro p hp
  obtain ⟨i, hi⟩ := List.mem_iff_getElem?.1 hp
  rw [List.getElem?_zip_eq_some] at hi
  obtain ⟨h1, h2⟩ := hi
  simp only [enumeration, List.getElem?_tail, List.getElem?_map, List.getElem?_range', Option.map_eq_some_iff] at h1 h2
  obtain ⟨a, ha, h1⟩ := h1
  obtain ⟨b, hb, h2⟩ := h2
  obtain ⟨ha', rfl⟩ := List.getElem?_eq_some_iff.1 ha
  obtain ⟨hb', rfl⟩ := List.getElem?_eq_some_iff.1 hb
  rw [← h1, ← h2]
  simp [apart]

theorem normalizeStamps_enumeration (d : DType) (n : Nat) (hn : 1 ≤ n) :
    normalizeStamps d (enumeration n) =
      (EMD.timeline n >>= EMD.normalizeTime).map (fun v => (⟨quotientType d, v⟩ : Arr)) := by
  unfold normalizeStamps
  rw [if_pos (apart_enumeration n), mapM_some]
  simp only [EMD.timeline, if_neg (show n ≠ 0 by omega), lit_eq, List.map_map, Function.comp_def, bind, Except.bind, Rat.cast_natCast,
    Int.cast_natCast]
  cases EMD.normalizeTime ((List.range n).map (fun k : Nat => (k : ℚ))) <;> rfl

theorem getTimeline_other (weak : Bool) (n : Nat) : getTimeline weak n (some .other) = .error .typeError := rfl

/-- A timeline that is not `0, 1, ..., n - 1` has two equal neighbours. -/
theorem stamps_collide (d : DType) (hd : d.isFloating = true) (n : Nat) (hn : 2 ^ d.precision + 1 < n) :
    normalizeStamps d ((List.range n).map (arangeElem d)) = .error .assertionError := by
  unfold normalizeStamps
  rw [if_neg]
  rw [List.all_eq_true]
  intro h
  have key : arangeElem d (2 ^ d.precision) = some (2 ^ d.precision : Int) ∧
      arangeElem d (2 ^ d.precision + 1) = some (2 ^ d.precision : Int) := by
    have a1 := roundSig_exact 11 (2 ^ 11) (by omega) (by omega)
    have a2 := roundSig_exact 24 (2 ^ 24) (by omega) (by omega)
    have a3 := roundSig_exact 53 (2 ^ 53) (by omega) (by omega)
    have b1 := roundSig_succ 11 (by omega)
    have b2 := roundSig_succ 24 (by omega)
    have b3 := roundSig_succ 53 (by omega)
    cases d <;> simp only [DType.isFloating, Bool.false_eq_true] at hd <;>
      simp only [DType.precision, arangeElem, a1, a2, a3, b1, b2, b3] <;> refine ⟨if_pos ?_, if_pos ?_⟩ <;> norm_num
  have := h (arangeElem d (2 ^ d.precision), arangeElem d (2 ^ d.precision + 1)) (by
    rw [List.mem_iff_getElem?]
    refine ⟨2 ^ d.precision, ?_⟩
    rw [List.getElem?_zip_eq_some]
    simp only [List.getElem?_tail, List.getElem?_map]
    rw [List.getElem?_range (by omega), List.getElem?_range (by omega)]
    exact ⟨rfl, rfl⟩)
  rw [key.1, key.2] at this
  simp [apart] at this

/-- What `get_timeline` returns for floating types. -/
theorem getTimeline_float (weak : Bool) (n : Nat) (h1 : 1 ≤ n) (h2 : (n : ℚ) < ieeeMax 53 1023) (d : DType) (hd : d.isFloating = true) :
    ∃ d', d'.isFloating = true ∧ getTimeline weak n (some d) = .ok (d', (List.range n).map (arangeElem d')) := by
  have hne : d ≠ .other := by rintro rfl; simp [DType.isFloating] at hd
  rw [getTimeline_eq weak n h1 d hne]
  split
  · obtain ⟨a1, a2, a3, a4⟩ := C27_float d hd (n : ℚ)
    have hr : ∃ r, smallestInclusiveDtype d n = .ok r ∧ r.isFloating = true ∧ r ≠ .other := by
      by_cases b1 : (n : ℚ) < ieeeMax 11 15
      · exact ⟨_, a1.2 b1, rfl, by simp⟩
      · by_cases b2 : (n : ℚ) < ieeeMax 24 127
        · exact ⟨_, a2.2 ⟨not_lt.1 b1, b2⟩, rfl, by simp⟩
        · exact ⟨_, a3.2 ⟨not_lt.1 b2, h2⟩, rfl, by simp⟩
    obtain ⟨r, hr, hf, ho⟩ := hr
    rw [hr]
    exact ⟨r, hf, by simp only [arange, if_neg ho]⟩
  · exact ⟨d, hd, rfl⟩

theorem exact_iff (d : DType) (hd : d.isFloating = true) (n : Nat) : Exact d n ↔ n ≤ 2 ^ d.precision + 1 := by
  cases d <;> simp only [DType.isFloating, Bool.false_eq_true] at hd <;> simp only [DType.precision]
  · exact exact_f16 n
  · exact exact_f32 n
  · exact exact_f64 n

/-- The quotient of two timelines never is an integer type. -/
theorem quotient_floating (d : DType) (hd : d ≠ .other) : (quotientType d).isFloating = true := by
  cases d <;> first | rfl | exact absurd rfl hd

theorem common_floating (a b : DType) (ha : a ≠ .other) (hb : b.isFloating = true) :
    (deduceCommonType a b).isFloating = true ∧ b.bits ≤ (deduceCommonType a b).bits ∧
      (a.isFloating = true → a.bits ≤ (deduceCommonType a b).bits) := by
  cases b <;> simp only [DType.isFloating, Bool.false_eq_true] at hb <;> cases a <;> first
    | exact absurd rfl ha
    | decide

theorem common_f64 (d : DType) (hd : d.isInteger = true) : deduceCommonType d .f64 = .f64 := by
  cases d <;> first
    | rfl
    | cases hd

theorem common_quotient (d : DType) : deduceCommonType d (quotientType d) = quotientType d := by
  cases d <;> rfl

theorem firstAbove_mem {v : ℚ} {l : List DType} {r : DType} (h : firstAbove v l = .ok r) : r ∈ l := by
  induction l with
  | nil => cases h
  | cons d l ih =>
    unfold firstAbove at h
    split at h
    · cases h; exact List.mem_cons_self
    · exact List.mem_cons_of_mem _ (ih h)

theorem getTimeline_kind {weak : Bool} {n : Nat} {d d' : DType} {t : List (Option Int)} (h : getTimeline weak n (some d) = .ok (d', t)) :
    d ≠ .other ∧ (d.isInteger = true → d'.isInteger = true) ∧ (d.isFloating = true → d'.isFloating = true) := by
  have hne : d ≠ .other := by rintro rfl; cases h
  refine ⟨hne, ?_⟩
  rcases Nat.eq_zero_or_pos n with rfl | hn
  · simp [getTimeline, arange, hne, bind, Except.bind] at h
  · rw [getTimeline_eq weak n hn d hne] at h
    split at h
    · cases hs : smallestInclusiveDtype d n with
      | error e => rw [hs] at h; cases h
      | ok r =>
        rw [hs] at h
        simp only [arange] at h
        split at h
        · cases h
        · next hr =>
          split at hr
          · cases hr
          · cases h
            unfold smallestInclusiveDtype at hs
            split at hs
            · next hi =>
              have := firstAbove_mem hs
              simp only [List.mem_cons, List.not_mem_nil, or_false] at this
              refine ⟨fun _ => by rcases this with rfl | rfl | rfl <;> rfl, fun hf => ?_⟩
              cases d <;> simp_all [DType.isInteger, DType.isFloating]
            · next hi =>
              split at hs
              · have := firstAbove_mem hs
                simp only [List.mem_cons, List.not_mem_nil, or_false] at this
                exact ⟨fun hh => absurd hh hi, fun _ => by rcases this with rfl | rfl | rfl <;> rfl⟩
              · cases hs
    · cases h
      exact ⟨id, id⟩

theorem normalizeStamps_dtype {d : DType} {t : List (Option Int)} {a : Arr} (h : normalizeStamps d t = .ok a) : a.dtype = quotientType d := by
  unfold normalizeStamps at h
  split at h
  · split at h
    · cases h
    · simp only [bind_eq_ok, pure_eq_ok] at h
      obtain ⟨v, -, rfl⟩ := h
      rfl
  · cases h

theorem own_kind {weak : Bool} {n : Nat} {d : DType} {a : Arr}
    (h : (getTimeline weak n (some d) >>= fun p => normalizeStamps p.1 p.2) = .ok a) :
    a.dtype.isFloating = true ∧ (d.isInteger = true → a.dtype = .f64) := by
  simp only [bind_eq_ok] at h
  obtain ⟨⟨d', t⟩, h1, h2⟩ := h
  obtain ⟨hne, k1, k2⟩ := getTimeline_kind h1
  rw [normalizeStamps_dtype h2]
  dsimp only
  generalize d' = x at *
  constructor
  · cases d <;> cases x <;> simp_all [DType.isInteger, DType.isFloating, quotientType]
  · intro hi
    have := k1 hi
    cases x <;> simp_all [DType.isInteger, quotientType]

/-- C112: signal and time array enter the loop with one and the same floating type - `float64` if the samples are integers
and the time array is not the caller's, never narrower than a floating type of the samples - so that nothing assigned to
arrays of that type is cut to integers. -/
theorem C112_working_type (weak : Bool) (cast : DType → ℚ → ℚ) (simple : Bool) (S : Arr) (T : Option Arr) (s t : Arr)
    (h : prepare weak cast simple S T = .ok (s, t)) (hS : S.dtype ≠ .other) (hT : ∀ T' ∈ T, T'.dtype ≠ .other) :
    s.dtype = t.dtype ∧ s.dtype.isFloating = true ∧ (S.dtype.isFloating = true → S.dtype.bits ≤ s.dtype.bits) ∧
      (S.dtype.isInteger = true → (T = none ∨ simple = true) → s.dtype = .f64) := by
  unfold prepare at h
  simp only [bind_eq_ok, pure_eq_ok] at h
  obtain ⟨a, ha, h⟩ := h
  have hk : a.dtype.isFloating = true ∧ (S.dtype.isInteger = true → (T = none ∨ simple = true) → a.dtype = .f64) := by
    unfold rawTime at ha
    cases T with
    | none => exact ⟨(own_kind ha).1, fun hi _ => (own_kind ha).2 hi⟩
    | some T' =>
      dsimp only at ha
      split at ha
      · cases ha
      · split at ha
        · exact ⟨(own_kind ha).1, fun hi _ => (own_kind ha).2 hi⟩
        · next hsim =>
          simp only [bind_eq_ok, pure_eq_ok] at ha
          obtain ⟨v, -, rfl⟩ := ha
          exact ⟨quotient_floating _ (hT T' rfl), fun _ hc => by rcases hc with hc | hc <;> simp_all⟩
  have e1 : s.dtype = deduceCommonType S.dtype a.dtype := by rw [← unify_type cast S a, h]
  have e2 := (C28_same_type cast S a).1
  rw [h] at e2
  obtain ⟨c1, c2, c3⟩ := common_floating S.dtype a.dtype hS hk.1
  refine ⟨e2, by rw [e1]; exact c1, fun hf => by rw [e1]; exact c3 hf, fun hi hc => ?_⟩
  rw [e1, hk.2 hi hc]
  exact common_f64 _ hi

/-- Bytes, 64-bit integers and half precision. -/
example : okWith (fun r => r.1.dtype == .f64 && r.2.dtype == .f64) (prepare true (fun _ v => v) true ⟨.u8, [0, 3, 1, 2]⟩ none) = true ∧
    okWith (fun r => r.1.dtype == .f64) (prepare true (fun _ v => v) true ⟨.i64, [0, 3, 1, 2]⟩ none) = true ∧
    okWith (fun r => r.1.dtype == .f16) (prepare true (fun _ v => v) true ⟨.f16, [0, 3, 1, 2]⟩ none) = true ∧
    okWith (fun r => r.1.dtype == .f32) (prepare true (fun _ v => v) false ⟨.i16, [0, 3, 1, 2]⟩ (some ⟨.f16, [0, 1, 2, 3]⟩)) = true := by
  decide +kernel

/-- The signal keeps its samples whenever its type, or `float64` for the integers, holds them. -/
theorem kept (cast : DType → ℚ → ℚ) (hc : CastKeeps cast) (S : Arr) (hS : S.dtype ≠ .other)
    (hv : ∀ v ∈ S.vals, Representable S.dtype v ∧ (S.dtype = .i64 ∨ S.dtype = .u64 → Representable .f64 v)) (a : Arr)
    (ha : a.dtype.isFloating = true) : (unifyTypes cast S a).1.vals = S.vals := by
  apply C28_values_kept cast hc
  intro v hm
  obtain ⟨h1, h2⟩ := hv v hm
  by_cases h : (S.dtype = .i64 ∨ S.dtype = .u64) ∧ deduceCommonType S.dtype a.dtype = .f64
  · rw [h.2]; exact h2 h.1
  · exact C28_common_type_holds _ _ hS (by intro hc; rw [hc] at ha; cases ha) h v h1

/-- C112: with its own time array `EMD.emd` returns for samples of any integer or floating type exactly what it returns for
the numbers themselves, as long as the type has enough significant bits to number the samples. -/
theorem C112_same_result_partial (weak : Bool) (cast : DType → ℚ → ℚ) (hc : CastKeeps cast) (fuel : Nat) (sp : SciPy ℚ)
    (cfg : EMD.Cfg ℚ) (S : Arr) (T : Option Arr) (max_imf : Int) (hT : T = none ∨ cfg.detection = .simple)
    (hS : S.dtype ≠ .other)
    (hv : ∀ v ∈ S.vals, Representable S.dtype v ∧ (S.dtype = .i64 ∨ S.dtype = .u64 → Representable .f64 v))
    (h1 : 1 ≤ S.vals.length) (h2 : S.vals.length ≤ 2 ^ (quotientType S.dtype).precision + 1) :
    (emd weak cast fuel sp cfg S T max_imf).map (·.2) = EMD.emdPure fuel sp cfg S.vals (T.map (·.vals)) max_imf := by
  have htl : ∃ d', getTimeline weak S.vals.length (some S.dtype) = .ok (d', enumeration S.vals.length) ∧ quotientType d' = quotientType S.dtype := by
    by_cases hi : S.dtype.isInteger = true
    · have hq : ∀ d : DType, d.isInteger = true → quotientType d = .f64 := by intro d hd; cases d <;> simp_all [DType.isInteger, quotientType]
      rw [hq _ hi] at h2
      obtain ⟨d', e, hd', -⟩ := C26_integer_partial weak S.vals.length h1 (by simp only [DType.precision] at h2; omega) S.dtype hi
      exact ⟨d', e, by rw [hq _ hi, hq _ hd']⟩
    · have hf : S.dtype.isFloating = true := by
        generalize S.dtype = x at *
        cases x <;> simp_all [DType.isInteger, DType.isFloating]
      have hq : quotientType S.dtype = S.dtype := by
        generalize S.dtype = x at hf
        cases x <;> simp_all [DType.isFloating, quotientType]
      rw [hq] at h2
      exact ⟨S.dtype, C26_float_partial weak S.vals.length h1 S.dtype hf h2, rfl⟩
  obtain ⟨d', e, hq⟩ := htl
  have hraw : rawTime weak (decide (cfg.detection = .simple)) S T =
      (EMD.prepareTime cfg S.vals (T.map (·.vals))).map (fun v => (⟨quotientType S.dtype, v⟩ : Arr)) := by
    have hown : (getTimeline weak S.vals.length (some S.dtype) >>= fun p => normalizeStamps p.1 p.2) =
        (EMD.timeline S.vals.length >>= EMD.normalizeTime).map (fun v => (⟨quotientType S.dtype, v⟩ : Arr)) := by
      rw [e, ← hq]
      exact normalizeStamps_enumeration d' _ h1
    unfold rawTime EMD.prepareTime
    cases T with
    | none => exact hown
    | some T' =>
      have hsim : cfg.detection = .simple := by simpa using hT
      dsimp only [Option.map_some]
      split
      · rfl
      · rw [if_pos (by simpa using hsim)]
        exact hown
  unfold emd
  unfold prepare
  rw [hraw]
  unfold EMD.emdPure EMD.emdRounds
  cases hp : EMD.prepareTime cfg S.vals (T.map (·.vals)) with
  | error err => rfl
  | ok v =>
    have ht : (unifyTypes cast S ⟨quotientType S.dtype, v⟩).2.vals = v := by
      simp only [unifyTypes, common_quotient, ne_eq, not_true_eq_false, if_false]
    have hs := kept cast hc S hS hv ⟨quotientType S.dtype, v⟩ (quotient_floating _ hS)
    simp only [Except.map, bind, Except.bind, pure, Except.pure, ht, hs]
    cases EMD.emdLoop sp cfg v S.vals max_imf fuel [] (-1) <;> rfl

/-- Integer samples: the same components as for the numbers, among them values that are not integers. -/
def byteS : Arr := ⟨.u8, [0, 9, 1, 8, 2, 9, 1, 7, 3]⟩

example : (∀ v ∈ byteS.vals, Representable byteS.dtype v) ∧ byteS.vals.length ≤ 2 ^ (quotientType byteS.dtype).precision + 1 ∧
    okWith (fun r => r.2.imfs.any (fun x => x.any (fun v => v.den != 1))) (emd true (fun _ v => v) 20 linSciPy EMD.sampleCfg byteS none (-1)) = true ∧
    (emd true (fun _ v => v) 20 linSciPy EMD.sampleCfg byteS none (-1)).map (·.2) = EMD.emdPure 20 linSciPy EMD.sampleCfg byteS.vals none (-1) := by
  have hr : ∀ v ∈ byteS.vals, Representable byteS.dtype v := by
    simp only [byteS, List.mem_cons, List.not_mem_nil, or_false, forall_eq_or_imp, forall_eq, Representable, IsInt]
    refine ⟨⟨0, ?_⟩, ⟨9, ?_⟩, ⟨1, ?_⟩, ⟨8, ?_⟩, ⟨2, ?_⟩, ⟨9, ?_⟩, ⟨1, ?_⟩, ⟨7, ?_⟩, ⟨3, ?_⟩⟩ <;> norm_num
  have hl : byteS.vals.length ≤ 2 ^ (quotientType byteS.dtype).precision + 1 := by decide
  refine ⟨hr, hl, by decide +kernel, ?_⟩
  exact C112_same_result_partial true _ (fun _ _ _ => rfl) 20 linSciPy EMD.sampleCfg byteS none (-1) (.inl rfl) (by decide)
    (fun v hv => ⟨hr v hv, fun h => by rcases h with h | h <;> cases h⟩) (by decide) hl

/-- The missing part of C112, exactly: floating samples (no or ignored time array) are refused with `AssertionError` if and only if
there are more of them than `2 ** p + 1`, `p` being the number of significant bits of the type, because neighbouring time
stamps then round to the same number; NumPy 1 rescues some lengths of `float16` signals (cf. C26). -/
theorem C112_refused (weak : Bool) (cast : DType → ℚ → ℚ) (S : Arr) (T : Option Arr) (simple : Bool)
    (hT : T = none ∨ simple = true) (hlen : ∀ T' ∈ T, T'.vals.length = S.vals.length) (hS : S.dtype.isFloating = true) (h1 : 2 ≤ S.vals.length)
    (h2 : S.vals.length < 2 ^ 1023) :
    prepare weak cast simple S T = .error .assertionError ↔
      2 ^ S.dtype.precision + 1 < S.vals.length ∧
        ¬ (weak = false ∧ S.dtype = .f16 ∧ 65504 ≤ S.vals.length ∧ S.vals.length ≠ 65505 ∧ S.vals.length ≤ 2 ^ 24 + 1) := by
  have hb : (S.vals.length : ℚ) < ieeeMax 53 1023 := by
    have h3 : ((2 ^ 1023 : Nat) : ℚ) < ieeeMax 53 1023 := by norm_num [ieeeMax]
    have h4 : (S.vals.length : ℚ) < ((2 ^ 1023 : Nat) : ℚ) := by exact_mod_cast h2
    linarith
  obtain ⟨d', hd', ht⟩ := getTimeline_float weak S.vals.length (by omega) hb S.dtype hS
  have hiff := C26_float_iff weak S.vals.length (by omega) S.dtype hS
  have hraw : rawTime weak simple S T = normalizeStamps d' ((List.range S.vals.length).map (arangeElem d')) := by
    unfold rawTime
    cases T with
    | none => simp only [ht]; rfl
    | some T' =>
      have hsim : simple = true := by simpa using hT
      simp only [hlen T' rfl, ht, hsim, ne_eq, not_true_eq_false, if_false, if_true]
      rfl
  have hex : (∃ d', getTimeline weak S.vals.length (some S.dtype) = .ok (d', enumeration S.vals.length)) ↔ S.vals.length ≤ 2 ^ d'.precision + 1 := by
    rw [ht]
    rw [← exact_iff d' hd', ← map_eq_enumeration]
    constructor
    · rintro ⟨d2, h⟩
      injection h with h
      exact (Prod.mk.inj h).2
    · intro h
      exact ⟨d', by rw [h]⟩
  have key : prepare weak cast simple S T = .error .assertionError ↔ ¬ S.vals.length ≤ 2 ^ d'.precision + 1 := by
    unfold prepare
    rw [hraw]
    constructor
    · intro h hle
      rw [(map_eq_enumeration d' _).2 ((exact_iff d' hd' _).2 hle), normalizeStamps_enumeration _ _ (by omega)] at h
      obtain ⟨v, hv, -⟩ := EMD.C25_normalize_time ((List.range S.vals.length).map (fun k : Nat => (k : ℚ)))
        (by rw [List.pairwise_map]; exact List.pairwise_lt_range.imp (fun h => by exact_mod_cast h)) (by simpa using h1)
      simp only [EMD.timeline, if_neg (show S.vals.length ≠ 0 by omega), lit_eq, bind, Except.bind, Rat.cast_natCast, hv, Except.map] at h
      cases h
    · intro hgt
      rw [stamps_collide d' hd' _ (by omega)]
      rfl
  rw [key, ← hex, hiff]
  constructor
  · intro h
    rw [not_or] at h
    exact ⟨by omega, h.2⟩
  · rintro ⟨h3, h4⟩ (h5 | h5)
    · omega
    · exact h4 h5

/-- C112 does not hold in full: 2050 samples in half precision cannot be decomposed, 2049 can, and neither do 2 ** 24 + 2
samples in single precision. -/
theorem C112_counterexample (cast : DType → ℚ → ℚ) (weak : Bool) :
    prepare weak cast true ⟨.f16, List.replicate 2050 0⟩ none = .error .assertionError ∧
    prepare weak cast true ⟨.f16, List.replicate 2049 0⟩ none ≠ .error .assertionError ∧
    prepare weak cast true ⟨.f32, List.replicate (2 ^ 24 + 2) 0⟩ none = .error .assertionError := by
  refine ⟨(C112_refused weak cast _ none true (.inl rfl) (fun _ h => absurd h (Option.not_mem_none _)) rfl ?_ ?_).2 ?_,
    fun h => ?_, (C112_refused weak cast _ none true (.inl rfl) (fun _ h => absurd h (Option.not_mem_none _)) rfl ?_ ?_).2 ?_⟩
  · simp only [List.length_replicate]; omega
  · simp only [List.length_replicate]; norm_num
  · simp only [List.length_replicate, DType.precision]; omega
  · have := ((C112_refused weak cast ⟨.f16, List.replicate 2049 0⟩ none true (.inl rfl) (fun _ h => absurd h (Option.not_mem_none _)) rfl (by simp only [List.length_replicate]; omega) (by
      simp only [List.length_replicate]; norm_num)).1 h).1
    simp only [List.length_replicate, DType.precision] at this
    omega
  · simp only [List.length_replicate]; omega
  · simp only [List.length_replicate]; norm_num
  · simp only [List.length_replicate, DType.precision]
    refine ⟨by omega, ?_⟩
    rintro ⟨-, h, -⟩
    cases h

/-- Samples of a type that is neither integer nor floating are refused. -/
theorem C112_other (weak : Bool) (cast : DType → ℚ → ℚ) (S : Arr) (simple : Bool) (hS : S.dtype = .other) :
    prepare weak cast simple S none = .error .typeError := by
  unfold prepare rawTime
  rw [hS, getTimeline_other]
  rfl

end Types
end PyEMD
