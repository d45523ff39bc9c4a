import Verif.Model.Utils
import Verif.Spec.Samples
import Mathlib.Tactic.Linarith
import Mathlib.Tactic.NormNum
import Mathlib.Tactic.Ring
import Mathlib.Tactic.Positivity

/-!
# C26 – C28: `PyEMD/utils.py`
-/

set_option exponentiation.threshold 1100

namespace PyEMD
namespace Utils

/-! ## C27 -/

/-- Widths of the candidate types. -/
def DType.bits : DType → Nat
  | .i8 | .u8 => 8
  | .i16 | .u16 | .f16 => 16
  | .i32 | .u32 | .f32 => 32
  | .i64 | .u64 | .f64 => 64
  | .other => 0

/-- C27, integers: for a value `v ≥ 0` the result is the narrowest of the unsigned types with 16, 32 and 64 bits whose largest
value `2 ** bits - 1` exceeds `v`; `ValueError` exactly if there is none. -/
theorem C27_integer (d : DType) (hd : d.isInteger = true) (v : ℚ) :
    (∀ r, smallestInclusiveDtype d v = .ok r ↔
      r ∈ [DType.u16, .u32, .u64] ∧ v < 2 ^ r.bits - 1 ∧ ∀ r' ∈ [DType.u16, .u32, .u64], v < 2 ^ r'.bits - 1 → r.bits ≤ r'.bits) ∧
    (smallestInclusiveDtype d v = .error .valueError ↔ 2 ^ 64 - 1 ≤ v) ∧
    ∀ e, smallestInclusiveDtype d v = .error e → e = .valueError := by
  have e1 : DType.u16.maxVal = 2 ^ 16 - 1 := rfl
  have e2 : DType.u32.maxVal = 2 ^ 32 - 1 := rfl
  have e3 : DType.u64.maxVal = 2 ^ 64 - 1 := rfl
  simp only [smallestInclusiveDtype, hd, if_true, firstAbove, e1, e2, e3]
  norm_num
  refine ⟨fun r => ?_, ?_, fun e => ?_⟩
  · constructor
    · intro h
      split at h
      · cases h
        norm_num [DType.bits]
        linarith
      · split at h
        · cases h
          norm_num [DType.bits]
          refine ⟨?_, ?_⟩ <;> linarith
        · split at h
          · cases h
            norm_num [DType.bits]
            refine ⟨?_, ?_, ?_⟩ <;> linarith
          · cases h
    · rintro ⟨rfl | rfl | rfl, h1, h2, h3, h4⟩ <;> norm_num [DType.bits] at h1 h2 h3 h4
      · rw [if_pos h1]
      · rw [if_neg (by linarith), if_pos h1]
      · rw [if_neg (by linarith), if_neg (by linarith), if_pos h1]
  · constructor
    · intro h
      split at h
      · cases h
      · split at h
        · cases h
        · split at h
          · cases h
          · linarith
    · intro h
      rw [if_neg (by linarith), if_neg (by linarith), if_neg (by linarith)]
  · intro h
    split at h
    · cases h
    · split at h
      · cases h
      · split at h
        · cases h
        · injection h with h
          exact h.symm

example : smallestInclusiveDtype .i8 300 = .ok .u16 ∧ smallestInclusiveDtype .i8 65534 = .ok .u16 ∧
    smallestInclusiveDtype .i8 65535 = .ok .u32 ∧ smallestInclusiveDtype .i64 (2 ^ 40) = .ok .u64 ∧
    smallestInclusiveDtype .u16 (2 ^ 64) = .error .valueError := by
  refine ⟨?_, ?_, ?_, ?_, ?_⟩ <;> norm_num [smallestInclusiveDtype, DType.isInteger, firstAbove, DType.maxVal]

/-- Largest finite value of an IEEE format with `p` significant bits and largest exponent `e`. -/
def ieeeMax (p e : Nat) : ℚ := (2 ^ p - 1) * 2 ^ (e + 1 - p)

/-- C27, floats: the narrowest of the types with 16, 32 and 64 bits (formats (11, 15), (24, 127), (53, 1023)) whose largest
finite value exceeds `v`; `ValueError` exactly if there is none. -/
theorem C27_float (d : DType) (hd : d.isFloating = true) (v : ℚ) :
    (smallestInclusiveDtype d v = .ok .f16 ↔ v < ieeeMax 11 15) ∧
    (smallestInclusiveDtype d v = .ok .f32 ↔ ieeeMax 11 15 ≤ v ∧ v < ieeeMax 24 127) ∧
    (smallestInclusiveDtype d v = .ok .f64 ↔ ieeeMax 24 127 ≤ v ∧ v < ieeeMax 53 1023) ∧
    (smallestInclusiveDtype d v = .error .valueError ↔ ieeeMax 53 1023 ≤ v) := by
  have hi : d.isInteger = false := by cases d <;> simp_all [DType.isFloating, DType.isInteger]
  have e1 : DType.f16.maxVal = ieeeMax 11 15 := by norm_num [DType.maxVal, ieeeMax]
  have e2 : DType.f32.maxVal = ieeeMax 24 127 := by norm_num [DType.maxVal, ieeeMax]
  have e3 : DType.f64.maxVal = ieeeMax 53 1023 := by norm_num [DType.maxVal, ieeeMax]
  have h12 : ieeeMax 11 15 < ieeeMax 24 127 := by norm_num [ieeeMax]
  have h23 : ieeeMax 24 127 < ieeeMax 53 1023 := by norm_num [ieeeMax]
  simp only [smallestInclusiveDtype, hi, hd, if_true, firstAbove, e1, e2, e3, Bool.false_eq_true, if_false]
  generalize ieeeMax 11 15 = a at *
  generalize ieeeMax 24 127 = b at *
  generalize ieeeMax 53 1023 = c at *
  by_cases ha : v < a
  · simp [ha, not_le.2 ha, not_le.2 (ha.trans h12), not_le.2 ((ha.trans h12).trans h23)]
  · by_cases hb : v < b
    · simp [ha, hb, not_lt.1 ha, not_le.2 hb, not_le.2 (hb.trans h23)]
    · by_cases hc : v < c
      · simp [ha, hb, hc, not_lt.1 hb, not_le.2 hc]
      · simp [ha, hb, hc, not_lt.1 hc]

example : smallestInclusiveDtype .f16 2051 = .ok .f16 ∧ smallestInclusiveDtype .f64 65504 = .ok .f32 := by
  constructor <;> norm_num [smallestInclusiveDtype, DType.isInteger, DType.isFloating, firstAbove, DType.maxVal]

/-- C27, other types are refused. -/
theorem C27_other (v : ℚ) : smallestInclusiveDtype .other v = .error .valueError := rfl

/-! ## C26 -/

/-- Element `i` is `i`, for all `i < n`. -/
def Exact (d : DType) (n : Nat) : Prop := ∀ i < n, arangeElem d i = some (i : Int)

/-- `0, 1, ..., n - 1`. -/
def enumeration (n : Nat) : List (Option Int) := (List.range n).map (fun i : Nat => some (i : Int))

theorem map_eq_enumeration (d : DType) (n : Nat) : (List.range n).map (arangeElem d) = enumeration n ↔ Exact d n := by
  rw [enumeration, List.map_inj_left]
  simp [Exact]

theorem roundSig_exact (p i : Nat) (hp : 1 ≤ p) (h : i ≤ 2 ^ p) : roundSig p i = i := by
  rcases h.lt_or_eq with h | rfl
  · have : Nat.size i - p = 0 := by
      have := Nat.size_le.2 h
      omega
    simp [roundSig, this, Nat.mod_one]
  · have hs : Nat.size (2 ^ p) - p = 1 := by rw [Nat.size_pow]; omega
    obtain ⟨k, rfl⟩ : ∃ k, p = k + 1 := ⟨p - 1, by omega⟩
    have h2 : 2 ^ (k + 1) = 2 ^ k * 2 := by rw [pow_succ]
    simp only [roundSig, hs, pow_one]
    rw [h2]
    simp

theorem roundSig_succ (p : Nat) (hp : 2 ≤ p) : roundSig p (2 ^ p + 1) = 2 ^ p := by
  obtain ⟨k, rfl⟩ : ∃ k, p = k + 2 := ⟨p - 2, by omega⟩
  have hs : Nat.size (2 ^ (k + 2) + 1) = k + 3 := by
    apply le_antisymm
    · rw [Nat.size_le]
      have : 2 ^ (k + 3) = 2 ^ (k + 2) * 2 := by rw [pow_succ]
      have : 1 < 2 ^ (k + 2) := Nat.one_lt_two_pow (by omega)
      omega
    · rw [Nat.succ_le_iff, Nat.lt_size]
      omega
  have h2 : 2 ^ (k + 2) = 2 ^ k * 4 := by rw [pow_add]; norm_num
  simp only [roundSig, hs, show k + 3 - (k + 2) = 1 by omega, pow_one]
  rw [h2, show (2 ^ k * 4 + 1) / 2 = 2 ^ k * 2 by omega, show (2 ^ k * 4 + 1) % 2 = 1 by omega]
  simp
  omega

theorem exact_mono {d : DType} {n m : Nat} (h : n ≤ m) (hm : Exact d m) : Exact d n := fun i hi => hm i (by omega)

theorem exact_f16 (n : Nat) : Exact .f16 n ↔ n ≤ 2 ^ 11 + 1 := by
  constructor
  · intro h
    by_contra hn
    have := h (2 ^ 11 + 1) (by omega)
    simp only [arangeElem] at this
    rw [roundSig_succ 11 (by omega)] at this
    norm_num at this
  · intro h i hi
    simp only [arangeElem]
    rw [roundSig_exact 11 i (by omega) (by omega), if_pos (by omega)]

theorem exact_f32 (n : Nat) : Exact .f32 n ↔ n ≤ 2 ^ 24 + 1 := by
  constructor
  · intro h
    by_contra hn
    have := h (2 ^ 24 + 1) (by omega)
    simp only [arangeElem] at this
    rw [roundSig_succ 24 (by omega)] at this
    norm_num at this
  · intro h i hi
    simp only [arangeElem]
    rw [roundSig_exact 24 i (by omega) (by omega), if_pos (by omega)]

theorem exact_f64 (n : Nat) : Exact .f64 n ↔ n ≤ 2 ^ 53 + 1 := by
  constructor
  · intro h
    by_contra hn
    have := h (2 ^ 53 + 1) (by omega)
    simp only [arangeElem] at this
    rw [roundSig_succ 53 (by omega)] at this
    norm_num at this
  · intro h i hi
    simp only [arangeElem]
    rw [roundSig_exact 53 i (by omega) (by omega), if_pos]
    exact lt_of_le_of_lt (show i ≤ 2 ^ 53 by omega) (by norm_num)

theorem getLast_range_map (d : DType) (n : Nat) (hn : 1 ≤ n) : ((List.range n).map (arangeElem d)).getLast? = some (arangeElem d (n - 1)) := by
  obtain ⟨k, rfl⟩ : ∃ k, n = k + 1 := ⟨n - 1, by omega⟩
  simp [List.range_succ]

/-- The call in terms of its two branches. -/
theorem getTimeline_eq (weak : Bool) (n : Nat) (hn : 1 ≤ n) (d : DType) (hd : d ≠ .other) :
    getTimeline weak n (some d) =
      if lastDiffers weak d (arangeElem d (n - 1)) n then
        (match smallestInclusiveDtype d n with
          | .error e => .error e
          | .ok d' => (match arange d' n with | .error e => .error e | .ok t => .ok (d', t)))
      else .ok (d, (List.range n).map (arangeElem d)) := by
  unfold getTimeline
  simp only [Option.getD_some, arange, if_neg hd, bind, Except.bind, pure, Except.pure, getLast_range_map d n hn]
  split
  · cases smallestInclusiveDtype d n with
    | error e => rfl
    | ok d' =>
      dsimp only
      cases (if d' = DType.other then Except.error PyErr.typeError else Except.ok (List.map (arangeElem d') (List.range n))) <;> rfl
  · rfl

theorem exact_int {d : DType} (hd : d.isInteger = true) {n : Nat} (hn : 1 ≤ n) (h : arangeElem d (n - 1) = some ((n : Int) - 1)) : Exact d n := by
  intro i hi
  cases d <;> simp only [DType.isInteger, Bool.false_eq_true] at hd <;> simp only [arangeElem, Option.some.injEq] at h ⊢ <;> omega

/-- C26 for integer types: for every `n` with `1 ≤ n < 2 ** 64 - 1`, `get_timeline(n, dtype)` is exactly `0, 1, ..., n - 1`; the
result has at least as many bits as `dtype` and keeps `dtype` unless it is too narrow.  Likewise for `dtype=None`.
Missing: floating types, for which the claim fails for long signals, see `C26_float_partial`, `C26_float_iff` and
`C26_counterexample`. -/
theorem C26_integer_partial (weak : Bool) (n : Nat) (h1 : 1 ≤ n) (h2 : n < 2 ^ 64 - 1) (d : DType) (hd : d.isInteger = true) :
    ∃ d', getTimeline weak n (some d) = .ok (d', enumeration n) ∧ d'.isInteger = true ∧ d.bits ≤ d'.bits ∧
      (((n : ℚ) - 1 ≤ d.maxVal) → d' = d) := by
  have hne : d ≠ .other := by rintro rfl; simp [DType.isInteger] at hd
  have hfl : d.isFloating = false := by cases d <;> simp_all [DType.isFloating, DType.isInteger]
  rw [getTimeline_eq weak n h1 d hne]
  simp only [lastDiffers, hfl, Bool.and_false, Bool.false_eq_true, if_false]
  by_cases hl : arangeElem d (n - 1) = some ((n : Int) - 1)
  · refine ⟨d, ?_, hd, le_refl _, fun _ => rfl⟩
    rw [hl]
    simp only [bne_self_eq_false, Bool.false_eq_true, if_false, (map_eq_enumeration d n).2 (exact_int hd h1 hl)]
  · rw [if_pos (by simpa using hl)]
    have hv : (n : ℚ) < 2 ^ 64 - 1 := by
      have : n + 1 < 2 ^ 64 := by omega
      have : ((n + 1 : Nat) : ℚ) < ((2 ^ 64 : Nat) : ℚ) := by exact_mod_cast this
      push_cast at this
      linarith
    have hi := C27_integer d hd (n : ℚ)
    cases hs : smallestInclusiveDtype d n with
    | error e =>
      have := hi.2.2 e hs
      subst this
      exact absurd (hi.2.1.1 hs) (by linarith)
    | ok d' =>
      obtain ⟨hm, hlt, hmin⟩ := (hi.1 d').1 hs
      have hd' : d' ≠ .other := by rintro rfl; simp at hm
      simp only [arange, if_neg hd']
      have hlt' : n < 2 ^ d'.bits - 1 := by
        have h3 : (1 : ℚ) ≤ 2 ^ d'.bits := one_le_pow₀ (by norm_num)
        have : ((n + 1 : Nat) : ℚ) < ((2 ^ d'.bits : Nat) : ℚ) := by push_cast; linarith
        have : n + 1 < 2 ^ d'.bits := by exact_mod_cast this
        omega
      refine ⟨d', ?_, ?_, ?_, ?_⟩
      · rw [(map_eq_enumeration d' n).2]
        intro i hi
        simp only [List.mem_cons, List.not_mem_nil, or_false] at hm
        rcases hm with rfl | rfl | rfl <;> simp only [DType.bits] at hlt' <;> simp only [arangeElem, Option.some.injEq] <;> omega
      · simp only [List.mem_cons, List.not_mem_nil, or_false] at hm
        rcases hm with rfl | rfl | rfl <;> rfl
      · simp only [List.mem_cons, List.not_mem_nil, or_false] at hm
        by_contra hb
        rcases hm with rfl | rfl | rfl <;> cases d <;> simp only [DType.isInteger, Bool.false_eq_true] at hd <;>
          simp only [DType.bits] at hlt' hb <;> simp only [arangeElem, Option.some.injEq] at hl <;> omega
      · intro hle
        exfalso
        apply hl
        cases d <;> simp only [DType.isInteger, Bool.false_eq_true] at hd <;> simp only [DType.maxVal] at hle <;>
          simp only [arangeElem, Option.some.injEq]
        all_goals
          have hle' : (n : ℚ) ≤ ((2 ^ 64 : Nat) : ℚ) := by push_cast; linarith
          norm_num at hle
        · have : n ≤ 128 := by exact_mod_cast hle
          omega
        · have : n ≤ 2 ^ 15 := by exact_mod_cast hle
          omega
        · have : n ≤ 2 ^ 31 := by exact_mod_cast hle
          omega
        · have : n ≤ 2 ^ 63 := by exact_mod_cast hle
          omega
        · have : n ≤ 2 ^ 8 := by exact_mod_cast hle
          omega
        · have : n ≤ 2 ^ 16 := by exact_mod_cast hle
          omega
        · have : n ≤ 2 ^ 32 := by exact_mod_cast hle
          omega
        · omega

/-- Both the narrow and the widened case occur. -/
example : (getTimeline true 4 (some .i8) = .ok (.i8, [some 0, some 1, some 2, some 3])) ∧
    okWith (fun r => r.1 == .u16 && r.2.getLast? == some (some 299)) (getTimeline true 300 (some .i8)) = true := by
  constructor
  · rfl
  · decide +kernel

/-- `dtype=None` is `int64`. -/
theorem C26_default (weak : Bool) (n : Nat) (h1 : 1 ≤ n) (h2 : n < 2 ^ 64 - 1) :
    ∃ d', getTimeline weak n none = .ok (d', enumeration n) := by
  obtain ⟨d', h, -⟩ := C26_integer_partial weak n h1 h2 .i64 rfl
  exact ⟨d', h⟩

example : getTimeline true 4 none = .ok (.i64, [some 0, some 1, some 2, some 3]) := rfl

/-- Significant bits. -/
def DType.precision : DType → Nat
  | .f16 => 11
  | .f32 => 24
  | .f64 => 53
  | _ => 0

/-- C26 for floating types: the claim holds up to `2 ** p + 1` samples, `p` being the number of significant bits. -/
theorem C26_float_partial (weak : Bool) (n : Nat) (h1 : 1 ≤ n) (d : DType) (hd : d.isFloating = true) (h2 : n ≤ 2 ^ d.precision + 1) :
    getTimeline weak n (some d) = .ok (d, enumeration n) := by
  have hne : d ≠ .other := by rintro rfl; simp [DType.isFloating] at hd
  have hex : Exact d n := by
    cases d <;> simp only [DType.isFloating, Bool.false_eq_true] at hd <;> simp only [DType.precision] at h2
    · exact (exact_f16 n).2 h2
    · exact (exact_f32 n).2 h2
    · exact (exact_f64 n).2 h2
  rw [getTimeline_eq weak n h1 d hne, if_neg, (map_eq_enumeration d n).2 hex]
  have hlast := hex (n - 1) (by omega)
  unfold lastDiffers
  split
  · simp
  · rw [hlast]
    simp only [bne_iff_ne, ne_eq, not_not, Option.some.injEq]
    omega

example : getTimeline true 3 (some .f16) = .ok (.f16, [some 0, some 1, some 2]) ∧ (3 : Nat) ≤ 2 ^ DType.f16.precision + 1 := by
  decide +kernel

/-- C26 for floating types, exact range of validity: `float32` and `float64` timelines are right if and only if
`n ≤ 2 ** p + 1`; `float16` timelines too with NumPy 2, while with NumPy 1 the widening additionally rescues the lengths from
65504 to `2 ** 24 + 1`, except 65505 (only there is the comparison of the last element able to notice the rounding, and the range check able
to widen). -/
theorem C26_float_iff (weak : Bool) (n : Nat) (h1 : 1 ≤ n) (d : DType) (hd : d.isFloating = true) :
    (∃ d', getTimeline weak n (some d) = .ok (d', enumeration n)) ↔
      n ≤ 2 ^ d.precision + 1 ∨ (weak = false ∧ d = .f16 ∧ 65504 ≤ n ∧ n ≠ 65505 ∧ n ≤ 2 ^ 24 + 1) := by
  have hne : d ≠ .other := by rintro rfl; simp [DType.isFloating] at hd
  constructor
  · rintro ⟨d', h⟩
    by_contra hcon
    rw [not_or] at hcon
    obtain ⟨hbig, hcon⟩ := hcon
    have hnd : ¬ Exact d n := by
      cases d <;> simp only [DType.isFloating, Bool.false_eq_true] at hd <;> simp only [DType.precision] at hbig
      · exact fun h => hbig ((exact_f16 n).1 h)
      · exact fun h => hbig ((exact_f32 n).1 h)
      · exact fun h => hbig ((exact_f64 n).1 h)
    rw [getTimeline_eq weak n h1 d hne] at h
    split at h
    next hl =>
      cases weak with
      | true => simp [lastDiffers, hd] at hl
      | false =>
        obtain ⟨a1, a2, a3, a4⟩ := C27_float d hd (n : ℚ)
        cases hs : smallestInclusiveDtype d n with
        | error e => rw [hs] at h; simp at h
        | ok r =>
          rw [hs] at h
          simp only at h
          have hr : r = .f16 ∨ r = .f32 ∨ r = .f64 := by
            have hi : d.isInteger = false := by cases d <;> simp_all [DType.isFloating, DType.isInteger]
            unfold smallestInclusiveDtype at hs
            simp only [hi, hd, Bool.false_eq_true, if_false, if_true, firstAbove] at hs
            split at hs
            · cases hs; simp
            · split at hs
              · cases hs; simp
              · split at hs
                · cases hs; simp
                · cases hs
          have hrn : r ≠ .other := by rcases hr with rfl | rfl | rfl <;> simp
          simp only [arange, if_neg hrn, Except.ok.injEq, Prod.mk.injEq] at h
          obtain ⟨rfl, h⟩ := h
          rw [map_eq_enumeration] at h
          rcases hr with rfl | rfl | rfl
          · rw [exact_f16] at h
            cases d <;> simp only [DType.isFloating, Bool.false_eq_true] at hd <;> simp only [DType.precision] at hbig <;> omega
          · rw [exact_f32] at h
            cases d <;> simp only [DType.isFloating, Bool.false_eq_true] at hd <;> simp only [DType.precision] at hbig
            · have h3 := (a2.1 hs).1
              norm_num [ieeeMax] at h3
              have h4 : 65504 ≤ n := by exact_mod_cast h3
              refine hcon ⟨rfl, rfl, h4, ?_, h⟩
              rintro rfl
              revert hl
              decide +kernel
            · omega
            · omega
          · rw [exact_f64] at h
            have h3 := (a3.1 hs).1
            have h4 : ((2 ^ 53 + 2 : Nat) : ℚ) < ieeeMax 24 127 := by norm_num [ieeeMax]
            have h5 : ((2 ^ 53 + 2 : Nat) : ℚ) < (n : ℚ) := lt_of_lt_of_le h4 h3
            have : 2 ^ 53 + 2 < n := by exact_mod_cast h5
            omega
    · simp only [Except.ok.injEq, Prod.mk.injEq] at h
      exact hnd ((map_eq_enumeration d n).1 h.2)
  · rintro (h | ⟨rfl, rfl, h2, h2', h3⟩)
    · exact ⟨d, C26_float_partial weak n h1 d hd h⟩
    · refine ⟨.f32, ?_⟩
      rw [getTimeline_eq false n h1 .f16 hne]
      have hs : smallestInclusiveDtype .f16 n = .ok .f32 := by
        rw [(C27_float .f16 rfl (n : ℚ)).2.1]
        constructor
        · have : ((65504 : Nat) : ℚ) ≤ (n : ℚ) := by exact_mod_cast (by omega : 65504 ≤ n)
          norm_num [ieeeMax]
          exact_mod_cast this
        · have : (n : ℚ) ≤ ((2 ^ 24 + 1 : Nat) : ℚ) := by exact_mod_cast h3
          refine lt_of_le_of_lt this ?_
          norm_num [ieeeMax]
      rw [if_pos, hs]
      · simp only [arange, reduceCtorEq, if_false, (map_eq_enumeration .f32 n).2 ((exact_f32 n).2 h3)]
      · simp only [lastDiffers, Bool.false_and, Bool.false_eq_true, if_false, bne_iff_ne, ne_eq, arangeElem]
        intro hcon
        split at hcon
        next hlt =>
          simp only [Option.some.injEq] at hcon
          have hrr : roundSig 11 (n - 1) = n - 1 := by omega
          have hm : (n - 1) % 32 = 0 ∨ 65536 ≤ n - 1 := by
            by_cases hb : 65536 ≤ n - 1
            · exact .inr hb
            · left
              have hsz : Nat.size (n - 1) = 16 := by
                apply le_antisymm
                · rw [Nat.size_le]; omega
                · rw [show (16 : Nat) = 15 + 1 from rfl, Nat.succ_le_iff, Nat.lt_size]; omega
              unfold roundSig at hrr
              rw [hsz] at hrr
              norm_num at hrr
              split at hrr
              · omega
              · split at hrr
                · omega
                · split at hrr <;> omega
          omega
        · simp at hcon

/-- The iff is not vacuous on either side. -/
example : (65506 : Nat) ≤ 2 ^ 24 + 1 ∧ ¬ ((65506 : Nat) ≤ 2 ^ DType.f16.precision + 1) ∧ ¬ ((2051 : Nat) ≤ 2 ^ DType.f16.precision + 1) := by decide

/-- C26 fails: the `float16` timeline for 2051 samples contains the time 2048 twice and the time 2049 not at all, with either
version of NumPy. -/
theorem C26_counterexample (weak : Bool) : ∃ t, getTimeline weak 2051 (some .f16) = .ok (.f16, t) ∧
    t[2048]? = some (some 2048) ∧ t[2049]? = some (some 2048) ∧ t[2050]? = some (some 2050) := by
  have h : ∀ weak : Bool, okWith (fun r => r.1 == .f16 && r.2[2048]? == some (some 2048) && r.2[2049]? == some (some 2048) &&
      r.2[2050]? == some (some 2050)) (getTimeline weak 2051 (some .f16)) = true := by
    decide +kernel
  obtain ⟨⟨d, t⟩, h1, h2⟩ := okWith_iff.1 (h weak)
  simp only [Bool.and_eq_true, beq_iff_eq] at h2
  obtain ⟨⟨⟨rfl, h3⟩, h4⟩, h5⟩ := h2
  exact ⟨t, h1, h3, h4, h5⟩

/-- `get_timeline(0)` raises `IndexError`. -/
theorem C26_empty (weak : Bool) (d : DType) (hd : d ≠ .other) : getTimeline weak 0 (some d) = .error .indexError := by
  simp [getTimeline, arange, hd, bind, Except.bind]

example : DType.f32 ≠ .other := by decide

/-! ## C28 -/

/-- `v` is an integer between `lo` and `hi`. -/
def IsInt (lo hi : Int) (v : ℚ) : Prop := ∃ k : Int, v = k ∧ lo ≤ k ∧ k ≤ hi

/-- `v` is a finite number of a binary floating point format with `p` significant bits and exponents from `emin` to `emax` (of
the last bit). -/
def IsFloat (p : Nat) (emin emax : Int) (v : ℚ) : Prop := ∃ m e : Int, v = m * (2 : ℚ) ^ e ∧ |m| < 2 ^ p ∧ emin ≤ e ∧ e ≤ emax

/-- The dtype can hold the value. -/
def Representable : DType → ℚ → Prop
  | .i8 => IsInt (-2 ^ 7) (2 ^ 7 - 1)
  | .i16 => IsInt (-2 ^ 15) (2 ^ 15 - 1)
  | .i32 => IsInt (-2 ^ 31) (2 ^ 31 - 1)
  | .i64 => IsInt (-2 ^ 63) (2 ^ 63 - 1)
  | .u8 => IsInt 0 (2 ^ 8 - 1)
  | .u16 => IsInt 0 (2 ^ 16 - 1)
  | .u32 => IsInt 0 (2 ^ 32 - 1)
  | .u64 => IsInt 0 (2 ^ 64 - 1)
  | .f16 => IsFloat 11 (-24) 5
  | .f32 => IsFloat 24 (-149) 104
  | .f64 => IsFloat 53 (-1074) 971
  | .other => fun _ => False

/-- Contract of `astype`: values that the target type can hold are kept. -/
def CastKeeps (cast : DType → ℚ → ℚ) : Prop := ∀ d v, Representable d v → cast d v = v

theorem promoteTypes_comm (a b : DType) : promoteTypes a b = promoteTypes b a := by
  cases a <;> cases b <;> rfl

theorem deduceCommonType_comm (a b : DType) : deduceCommonType a b = deduceCommonType b a := by
  unfold deduceCommonType
  by_cases h : a = b
  · simp [h]
  · rw [if_neg h, if_neg (Ne.symm h), promoteTypes_comm]

/-- C28: both results have one and the same dtype, the common type of the arguments. -/
theorem C28_same_type (cast : DType → ℚ → ℚ) (x y : Arr) :
    (unifyTypes cast x y).1.dtype = (unifyTypes cast x y).2.dtype ∧
    (unifyTypes cast x y).1.vals.length = x.vals.length ∧ (unifyTypes cast x y).2.vals.length = y.vals.length := by
  simp only [unifyTypes]
  refine ⟨?_, ?_, ?_⟩
  · generalize deduceCommonType x.dtype y.dtype = d
    have key : ∀ z : Arr, (if z.dtype ≠ d then { dtype := d, vals := z.vals.map (cast d) } else z : Arr).dtype = d := by
      intro z
      split
      · rfl
      next h => exact not_not.1 h
    rw [key, key]
  · split <;> simp
  · split <;> simp

/-- C28: exchanging the arguments exchanges the results. -/
theorem C28_symmetric (cast : DType → ℚ → ℚ) (x y : Arr) : unifyTypes cast y x = (unifyTypes cast x y).swap := by
  simp only [unifyTypes, Prod.swap, deduceCommonType_comm y.dtype x.dtype]

/-- C28: values that the common type can hold are kept. -/
theorem C28_values_kept (cast : DType → ℚ → ℚ) (hc : CastKeeps cast) (x y : Arr)
    (h : ∀ v ∈ x.vals, Representable (deduceCommonType x.dtype y.dtype) v) : (unifyTypes cast x y).1.vals = x.vals := by
  simp only [unifyTypes]
  split
  · conv_rhs => rw [← List.map_id x.vals]
    exact List.map_congr_left (fun v hv => hc _ v (h v hv))
  · rfl

theorem IsInt.mono {lo hi lo' hi' : Int} {v : ℚ} (h : IsInt lo hi v) (h1 : lo' ≤ lo) (h2 : hi ≤ hi') : IsInt lo' hi' v := by
  obtain ⟨k, rfl, h3, h4⟩ := h
  exact ⟨k, rfl, by omega, by omega⟩

theorem IsInt.toFloat {lo hi : Int} {p : Nat} {emin emax : Int} {v : ℚ} (h : IsInt lo hi v) (h1 : -2 ^ p < lo) (h2 : hi < 2 ^ p)
    (h3 : emin ≤ 0) (h4 : 0 ≤ emax) : IsFloat p emin emax v := by
  obtain ⟨k, rfl, h5, h6⟩ := h
  exact ⟨k, 0, by simp, by rw [abs_lt]; constructor <;> linarith, h3, h4⟩

theorem IsFloat.mono {p p' : Nat} {emin emax emin' emax' : Int} {v : ℚ} (h : IsFloat p emin emax v) (hp : p ≤ p') (h1 : emin' ≤ emin)
    (h2 : emax ≤ emax') : IsFloat p' emin' emax' v := by
  obtain ⟨m, e, rfl, hm, h3, h4⟩ := h
  exact ⟨m, e, rfl, lt_of_lt_of_le hm (pow_le_pow_right₀ (by norm_num) hp), by omega, by omega⟩

/-- C28: which conversions are lossless: the common type holds every value of the first argument's type, unless this is a
64-bit integer type and the common type is `float64`. -/
theorem C28_common_type_holds (a b : DType) (ha : a ≠ .other) (hb : b ≠ .other)
    (h : ¬ ((a = .i64 ∨ a = .u64) ∧ deduceCommonType a b = .f64)) (v : ℚ) (hv : Representable a v) :
    Representable (deduceCommonType a b) v := by
  cases a <;> cases b <;> first
    | exact absurd rfl ha
    | exact absurd rfl hb
    | exact absurd ⟨.inl rfl, rfl⟩ h
    | exact absurd ⟨.inr rfl, rfl⟩ h
    | exact hv
    | exact IsInt.mono hv (by norm_num) (by norm_num)
    | exact IsInt.toFloat hv (by norm_num) (by norm_num) (by norm_num) (by norm_num)
    | exact IsFloat.mono hv (by norm_num) (by norm_num) (by norm_num)

/-- The exception is real: `int64` with `float32` gives `float64`, which cannot hold `2 ** 53 + 1`. -/
theorem C28_lossy : deduceCommonType .i64 .f32 = .f64 ∧ Representable .i64 (2 ^ 53 + 1) ∧ ¬ Representable .f64 (2 ^ 53 + 1) := by
  refine ⟨rfl, ⟨2 ^ 53 + 1, by norm_num, by norm_num, by norm_num⟩, ?_⟩
  rintro ⟨m, e, h, hm, h1, h2⟩
  rcases le_or_gt e 0 with he | he
  · have h3 : (2 : ℚ) ^ e ≤ 1 := zpow_le_one_of_nonpos₀ (by norm_num) he
    have h4 : (0 : ℚ) < 2 ^ e := zpow_pos (by norm_num) e
    have h5 : (m : ℚ) < 2 ^ 53 := by
      have := (abs_lt.1 hm).2
      exact_mod_cast this
    have : (m : ℚ) * 2 ^ e ≤ 2 ^ 53 := by
      rcases le_or_gt (m : ℚ) 0 with hm0 | hm0
      · have : (m : ℚ) * 2 ^ e ≤ 0 := mul_nonpos_of_nonpos_of_nonneg hm0 h4.le
        linarith [show (0 : ℚ) < 2 ^ 53 by norm_num]
      · nlinarith
    rw [← h] at this
    norm_num at this
  · obtain ⟨k, rfl⟩ : ∃ k : Nat, e = (k : Int) + 1 := ⟨(e - 1).toNat, by omega⟩
    have h3 : (2 : ℚ) ^ ((k : Int) + 1) = 2 * 2 ^ k := by
      rw [zpow_add₀ (by norm_num), zpow_natCast, zpow_one, mul_comm]
    rw [h3] at h
    have h4 : (2 : Int) ^ 53 + 1 = m * (2 * 2 ^ k) := by exact_mod_cast h
    have h5 : m * (2 * 2 ^ k) = 2 * (m * 2 ^ k) := by ring
    rw [h5] at h4
    omega

/-- A conversion that keeps everything satisfies the contract; mixed signs and int with float. -/
example : CastKeeps (fun _ v => v) ∧ deduceCommonType .i16 .u16 = .i32 ∧ deduceCommonType .u8 .f16 = .f16 ∧
    unifyTypes (fun _ v => v) ⟨.i8, [1, -2]⟩ ⟨.u16, [7]⟩ = (⟨.i32, [1, -2]⟩, ⟨.i32, [7]⟩) :=
  ⟨fun _ _ _ => rfl, rfl, rfl, rfl⟩

end Utils
end PyEMD
