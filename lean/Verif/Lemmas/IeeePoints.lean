import Verif.Lemmas.IeeeExtrema
import Verif.Model.Points

/-!
# Mirroring in floating point is exact on integer time stamps
-/

set_option linter.unusedSectionVars false

namespace PyEMD

theorem roundDiv_mul (n d c : ℕ) (hc : 0 < c) : roundDiv (n * c) (d * c) = roundDiv n d := by
  unfold roundDiv
  rw [Nat.mul_mod_mul_right, Nat.mul_div_mul_right _ _ hc]
  have e1 : (2 * (n % d * c) < d * c) = (2 * (n % d) < d) := by
    rw [← mul_assoc]
    exact propext (Nat.mul_lt_mul_right hc)
  have e2 : (d * c < 2 * (n % d * c)) = (d < 2 * (n % d)) := by
    rw [← mul_assoc]
    exact propext (Nat.mul_lt_mul_right hc)
  simp only [e1, e2]

theorem rndNat_mul (f n c : ℕ) (hc : 0 < c) : rndNat f (n * c) c = rndNat f n 1 := by
  unfold rndNat
  rw [Nat.mul_div_cancel _ hc, Nat.div_one, one_mul]
  congr 1
  rw [mul_comm c]
  exact roundDiv_mul _ _ _ hc

theorem rndInt_mul (f : ℕ) (n : ℤ) (c : ℕ) (hc : 0 < c) : rndInt f (n * c) c = rndInt f n 1 := by
  have hc' : (0 : ℤ) < c := by exact_mod_cast hc
  unfold rndInt
  rw [Int.natAbs_mul, Int.natAbs_natCast, rndNat_mul _ _ _ hc]
  have : (n * c < 0) = (n < 0) := propext ⟨fun h => by by_contra h'; exact absurd h (not_lt.2 (mul_nonneg (not_lt.1 h') hc'.le)),
    fun h => mul_neg_of_neg_of_pos h hc'⟩
  simp only [this]

/-- Integers of at most `f + 1` bits, in units. -/
theorem rndInt_exact (f : ℕ) (k : ℤ) (e : ℕ) (hk : k.natAbs ≤ 2 ^ (f + 1)) : rndInt f (k * 2 ^ e) 1 = k * 2 ^ e := by
  have h := rndNat_exact f k.natAbs e hk
  have h2 : (k * 2 ^ e).natAbs = k.natAbs * 2 ^ e := by
    rw [Int.natAbs_mul, Int.natAbs_pow]; rfl
  have hp : (0 : ℤ) < 2 ^ e := by positivity
  unfold rndInt
  rw [h2, h]
  push_cast
  split_ifs with hn
  · have : k < 0 := by
      by_contra h'
      exact absurd hn (not_lt.2 (mul_nonneg (not_lt.1 h') hp.le))
    rw [abs_of_neg this]
    ring
  · have : 0 ≤ k := by
      by_contra h'
      exact hn (mul_neg_of_neg_of_pos (not_le.1 h') hp)
    rw [abs_of_nonneg this]

namespace Ieee
variable {f e E : ℕ}

theorem rep_int (hE : f + 2 ≤ E) (k : ℤ) (hk : k.natAbs ≤ 2 ^ (f + 1)) : Rep f e E (k * 2 ^ e) := by
  refine ⟨rndInt_exact f k e hk, ?_⟩
  rw [Int.natAbs_mul, Int.natAbs_pow, pow_add]
  refine Nat.mul_lt_mul_of_pos_right (lt_of_le_of_lt hk ?_) (by positivity)
  exact Nat.pow_lt_pow_right (by norm_num) (by omega)

/-- `x` is the integer `k`. -/
def IsInt (x : Ieee f e E) (k : ℤ) : Prop := ∃ h, x = num (k * 2 ^ e) h

theorem isInt_round (hE : f + 2 ≤ E) (n k : ℤ) (d : ℕ) (hd : 0 < d) (hn : n = k * 2 ^ e * d) (hk : k.natAbs ≤ 2 ^ (f + 1)) :
    IsInt (round n d hd : Ieee f e E) k := by
  subst hn
  have h1 : rndInt f (k * 2 ^ e * d) d = k * 2 ^ e := by rw [rndInt_mul _ _ _ hd, rndInt_exact f k e hk]
  have h2 := rep_int (e := e) hE k hk
  refine ⟨h2, ?_⟩
  unfold round
  rw [dif_pos (by rw [h1]; exact h2.2)]
  congr 1

theorem isInt_lit (hE : f + 2 ≤ E) (k : ℤ) (hk : k.natAbs ≤ 2 ^ (f + 1)) : IsInt (lit (k : ℚ) : Ieee f e E) k := by
  refine isInt_round hE _ k _ _ ?_ hk
  simp

theorem IsInt.mul (hE : f + 2 ≤ E) {x y : Ieee f e E} {j k : ℤ} (hx : IsInt x j) (hy : IsInt y k)
    (h : (j * k).natAbs ≤ 2 ^ (f + 1)) : IsInt (x * y) (j * k) := by
  obtain ⟨h1, rfl⟩ := hx
  obtain ⟨h2, rfl⟩ := hy
  rw [mul_num]
  refine isInt_round hE _ _ _ _ ?_ h
  push_cast
  ring

theorem IsInt.sub (hE : f + 2 ≤ E) {x y : Ieee f e E} {j k : ℤ} (hx : IsInt x j) (hy : IsInt y k)
    (h : (j - k).natAbs ≤ 2 ^ (f + 1)) : IsInt (x - y) (j - k) := by
  obtain ⟨h1, rfl⟩ := hx
  obtain ⟨h2, rfl⟩ := hy
  rw [sub_num]
  refine isInt_round hE _ _ _ _ ?_ h
  push_cast
  ring

theorem IsInt.finite {x : Ieee f e E} {k : ℤ} (hx : IsInt x k) : x.isFinite = true := by
  obtain ⟨h, rfl⟩ := hx
  rfl

theorem IsInt.val {x : Ieee f e E} {k : ℤ} (hx : IsInt x k) : x.val = k := by
  obtain ⟨h, rfl⟩ := hx
  simp only [Ieee.val]
  push_cast
  field_simp

theorem IsInt.toInt {x : Ieee f e E} {k : ℤ} (hx : IsInt x k) : toInt x = k := by
  obtain ⟨h, rfl⟩ := hx
  show (k * 2 ^ e).tdiv (2 ^ e) = k
  exact Int.mul_tdiv_cancel _ (by positivity)

theorem toInt_int (k : ℤ) : toInt (k : ℝ) = k := by
  show (if (0 : ℝ) ≤ k then ⌊(k : ℝ)⌋ else ⌈(k : ℝ)⌉) = k
  simp

/-- Time stamps: integers from 0 to `2ᶠ`. -/
def Stamp (x : Ieee f e E) : Prop := ∃ k : ℤ, IsInt x k ∧ 0 ≤ k ∧ k ≤ 2 ^ f

/-- Mirrored time stamps are integers as well, of magnitude at most `2ᶠ⁺¹`. -/
def Wide (x : Ieee f e E) : Prop := ∃ k : ℤ, IsInt x k ∧ k.natAbs ≤ 2 ^ (f + 1)

theorem Stamp.wide {x : Ieee f e E} (h : Stamp x) : Wide x := by
  obtain ⟨k, hk, h0, h1⟩ := h
  refine ⟨k, hk, ?_⟩
  have h2 : (k.natAbs : ℤ) ≤ 2 ^ f := by rw [Int.natAbs_of_nonneg h0]; exact h1
  have h3 : k.natAbs ≤ 2 ^ f := by exact_mod_cast h2
  exact h3.trans (Nat.pow_le_pow_right (by norm_num) (by omega))

theorem Wide.finite {x : Ieee f e E} (h : Wide x) : x.isFinite = true := let ⟨_, hk, _⟩ := h; hk.finite

theorem Wide.toInt {x : Ieee f e E} (h : Wide x) : PyEMD.toInt x = PyEMD.toInt x.val := by
  obtain ⟨k, hk, -⟩ := h
  rw [hk.toInt, hk.val, toInt_int]

theorem lt_iff {x y : Ieee f e E} (hx : x.isFinite = true) (hy : y.isFinite = true) : x < y ↔ x.val < y.val := by
  obtain ⟨a, ha, rfl⟩ := eq_num hx
  obtain ⟨b, hb, rfl⟩ := eq_num hy
  rw [lt_num]
  simp only [Ieee.val]
  rw [div_lt_div_iff_of_pos_right (by positivity)]
  exact Int.cast_lt.symm

theorem mirror_stamp (hE : f + 2 ≤ E) {x s : Ieee f e E} (hx : Stamp x) (hs : Stamp s) :
    Wide (lit 2 * s - x) ∧ (lit 2 * s - x).val = lit 2 * s.val - x.val := by
  obtain ⟨k, hk, k0, k1⟩ := hx
  obtain ⟨j, hj, j0, j1⟩ := hs
  have hp : (1 : ℤ) ≤ 2 ^ f := by exact_mod_cast Nat.one_le_two_pow
  have hq : (2 : ℤ) ^ (f + 1) = 2 * 2 ^ f := by ring
  have bound : ∀ m : ℤ, -(2 * 2 ^ f) ≤ m → m ≤ 2 * 2 ^ f → m.natAbs ≤ 2 ^ (f + 1) := by
    intro m h1 h2
    have : |m| ≤ 2 ^ (f + 1) := by rw [hq, abs_le]; exact ⟨h1, h2⟩
    rw [← Int.natCast_natAbs] at this
    exact_mod_cast this
  have h2 : IsInt (lit 2 : Ieee f e E) 2 := by
    have := isInt_lit (f := f) (e := e) hE 2 (bound 2 (by omega) (by omega))
    exact_mod_cast this
  have h3 := h2.mul hE hj (bound _ (by omega) (by omega))
  have h4 := h3.sub hE hk (bound _ (by omega) (by omega))
  refine ⟨⟨_, h4, bound _ (by omega) (by omega)⟩, ?_⟩
  rw [h4.val, hj.val, hk.val]
  show _ = ((2 : ℚ) : ℝ) * _ - _
  push_cast
  ring

theorem pyGet_mem {β : Type} {l : List β} {i : Int} {x : β} (h : pyGet l i = .ok x) : x ∈ l := by
  unfold pyGet at h
  cases h1 : pyIdx l.length i with
  | none => rw [h1] at h; exact (nomatch h)
  | some k =>
    rw [h1] at h
    dsimp only at h
    cases h2 : l[k]? with
    | none => rw [h2] at h; exact (nomatch h)
    | some y =>
      rw [h2] at h
      injection h with h
      subst h
      exact List.mem_of_getElem? h2

theorem pyTake_mem {β : Type} {l : List β} {idx : List Int} {xs : List β} (h : pyTake l idx = .ok xs) : ∀ x ∈ xs, x ∈ l := by
  induction idx generalizing xs with
  | nil =>
    injection h with h
    subst h
    simp
  | cons i is ih =>
    unfold pyTake at h
    simp only [bind_eq_ok, pure_eq_ok] at h
    obtain ⟨x, hx, ys, hys, rfl⟩ := h
    intro z hz
    rcases List.mem_cons.1 hz with rfl | hz
    · exact pyGet_mem hx
    · exact ih hys z hz

theorem leftBound_val (nbsym : Int) (S : List (Ieee f e E)) (hS : ∀ x ∈ S, x.isFinite = true) (mx mn : List Int) :
    EMD.leftBound nbsym S mx mn = EMD.leftBound nbsym (S.map val) mx mn := by
  unfold EMD.leftBound
  cases pyGet mx 0 with
  | error er => rfl
  | ok a =>
    cases pyGet mn 0 with
    | error er => rfl
    | ok b =>
      simp only [bind, Except.bind, pyGet_map]
      cases h0 : pyGet S 0 with
      | error er => rfl
      | ok s0 =>
        cases h1 : pyGet S a with
        | error er => cases h2 : pyGet S b with
          | error er' => rfl
          | ok s2 =>
            simp only [Except.map, lt_iff (hS _ (pyGet_mem h2)) (hS _ (pyGet_mem h0))]
        | ok s1 => cases h2 : pyGet S b with
          | error er' => simp only [Except.map, lt_iff (hS _ (pyGet_mem h0)) (hS _ (pyGet_mem h1))]
          | ok s2 =>
            simp only [Except.map, lt_iff (hS _ (pyGet_mem h0)) (hS _ (pyGet_mem h1)), lt_iff (hS _ (pyGet_mem h2)) (hS _ (pyGet_mem h0))]

theorem rightBound_val (nbsym : Int) (S : List (Ieee f e E)) (hS : ∀ x ∈ S, x.isFinite = true) (mx mn : List Int) :
    EMD.rightBound nbsym S mx mn = EMD.rightBound nbsym (S.map val) mx mn := by
  unfold EMD.rightBound
  cases pyGet mx (-1) with
  | error er => rfl
  | ok a =>
    cases pyGet mn (-1) with
    | error er => rfl
    | ok b =>
      simp only [bind, Except.bind, pyGet_map, List.length_map]
      cases h0 : pyGet S (-1) with
      | error er => rfl
      | ok s0 =>
        cases h1 : pyGet S a with
        | error er => cases h2 : pyGet S b with
          | error er' => rfl
          | ok s2 =>
            simp only [Except.map, lt_iff (hS _ (pyGet_mem h2)) (hS _ (pyGet_mem h0))]
        | ok s1 => cases h2 : pyGet S b with
          | error er' => simp only [Except.map, lt_iff (hS _ (pyGet_mem h0)) (hS _ (pyGet_mem h1))]
          | ok s2 =>
            simp only [Except.map, lt_iff (hS _ (pyGet_mem h0)) (hS _ (pyGet_mem h1)), lt_iff (hS _ (pyGet_mem h2)) (hS _ (pyGet_mem h0))]

/-- A computation and its image: the same exception, or results that correspond. -/
def Tracks {A B : Type} (R : A → B → Prop) (x : PyM A) (y : PyM B) : Prop :=
  match x, y with
  | .ok a, .ok b => R a b
  | .error p, .error q => p = q
  | _, _ => False

theorem Tracks.bind {A B A' B' : Type} {R : A → B → Prop} {R' : A' → B' → Prop} {x : PyM A} {y : PyM B} {g : A → PyM A'}
    {h : B → PyM B'} (h1 : Tracks R x y) (h2 : ∀ a b, R a b → Tracks R' (g a) (h b)) : Tracks R' (x >>= g) (y >>= h) := by
  cases x with
  | error p =>
    cases y with
    | error q => exact h1
    | ok b => exact h1.elim
  | ok a =>
    cases y with
    | error q => exact h1.elim
    | ok b => exact h2 a b h1

theorem Tracks.refl {A : Type} (x : PyM A) : Tracks (· = ·) x x := by
  cases x with
  | error p => rfl
  | ok a => rfl

theorem Tracks.ok {A B : Type} {R : A → B → Prop} {a : A} {b : B} (h : R a b) : Tracks R (.ok a : PyM A) (.ok b : PyM B) := h

/-- Integers, and their values. -/
def WideList (xs : List (Ieee f e E)) (ys : List ℝ) : Prop := (∀ x ∈ xs, Wide x) ∧ ys = xs.map val

/-- Any finite numbers, and their values. -/
def FinList (xs : List (Ieee f e E)) (ys : List ℝ) : Prop := (∀ x ∈ xs, x.isFinite = true) ∧ ys = xs.map val

theorem track_get (l : List (Ieee f e E)) (i : Int) : Tracks (fun x y => x ∈ l ∧ y = x.val) (pyGet l i) (pyGet (l.map val) i) := by
  rw [pyGet_map]
  cases h : pyGet l i with
  | error p => rfl
  | ok x => exact ⟨pyGet_mem h, rfl⟩

theorem track_take (l : List (Ieee f e E)) (idx : List Int) :
    Tracks (fun x y => (∀ z ∈ x, z ∈ l) ∧ y = x.map val) (pyTake l idx) (pyTake (l.map val) idx) := by
  rw [pyTake_mapf]
  cases h : pyTake l idx with
  | error p => rfl
  | ok x => exact ⟨pyTake_mem h, rfl⟩

theorem track_mirrorTimes (hE : f + 2 ≤ E) (T : List (Ieee f e E)) (hT : ∀ x ∈ T, Stamp x) (sym : Int) (idx : List Int) :
    Tracks WideList (EMD.mirrorTimes T sym idx) (EMD.mirrorTimes (T.map val) sym idx) := by
  unfold EMD.mirrorTimes
  refine (track_get T sym).bind fun s s' hs => ?_
  obtain ⟨hs, rfl⟩ := hs
  refine (track_take T idx).bind fun x x' hx => ?_
  obtain ⟨hx, rfl⟩ := hx
  refine Tracks.ok ⟨?_, ?_⟩
  · intro z hz
    obtain ⟨w, hw, rfl⟩ := List.mem_map.1 hz
    exact (mirror_stamp hE (hT _ (hx _ hw)) (hT _ hs)).1
  · rw [List.map_map, List.map_map]
    refine List.map_congr_left fun w hw => ?_
    exact (mirror_stamp hE (hT _ (hx _ hw)) (hT _ hs)).2.symm

/-- Mirrored extrema and their values. -/
def MirRel (a : EMD.Mirrored (Ieee f e E)) (b : EMD.Mirrored ℝ) : Prop :=
  WideList a.tmx b.tmx ∧ WideList a.tmn b.tmn ∧ a.mx = b.mx ∧ a.mn = b.mn

theorem track_leftMirror (hE : f + 2 ≤ E) (nbsym : Int) (T : List (Ieee f e E)) (hT : ∀ x ∈ T, Stamp x) (mx mn : List Int)
    (m : EMD.Mirror) : Tracks MirRel (EMD.leftMirror nbsym T mx mn m) (EMD.leftMirror nbsym (T.map val) mx mn m) := by
  unfold EMD.leftMirror
  refine (track_mirrorTimes hE T hT m.sym m.mn).bind fun a a' ha => ?_
  refine (track_mirrorTimes hE T hT m.sym m.mx).bind fun b b' hb => ?_
  have hb' := hb
  obtain ⟨ha1, rfl⟩ := ha
  obtain ⟨hb1, rfl⟩ := hb
  refine (track_get a 0).bind fun x x' hx => ?_
  obtain ⟨hx, rfl⟩ := hx
  refine (track_get T 0).bind fun t t' ht => ?_
  obtain ⟨ht, rfl⟩ := ht
  refine (track_get b 0).bind fun y y' hy => ?_
  obtain ⟨hy, rfl⟩ := hy
  have c : (t < x ∨ t < y) ↔ (t.val < x.val ∨ t.val < y.val) := by
    rw [lt_iff (hT _ ht).wide.finite (ha1 _ hx).finite, lt_iff (hT _ ht).wide.finite (hb1 _ hy).finite]
  by_cases hc : t.val < x.val ∨ t.val < y.val
  · rw [if_pos hc, if_pos (c.2 hc)]
    refine (Tracks.refl (pyGet mx 0)).bind fun p p' hp => ?_
    subst hp
    dsimp only
    split <;> split <;> first
      | exact rfl
      | (refine (track_mirrorTimes hE T hT 0 _).bind fun a a' ha => ?_
         refine (track_mirrorTimes hE T hT 0 _).bind fun b b' hb => ?_
         exact Tracks.ok ⟨hb, ha, rfl, rfl⟩)
  · rw [if_neg hc, if_neg (fun h => hc (c.1 h))]
    exact Tracks.ok ⟨⟨hb1, rfl⟩, ⟨ha1, rfl⟩, rfl, rfl⟩

theorem track_rightMirror (hE : f + 2 ≤ E) (nbsym : Int) (T : List (Ieee f e E)) (hT : ∀ x ∈ T, Stamp x) (n : Nat) (mx mn : List Int)
    (m : EMD.Mirror) : Tracks MirRel (EMD.rightMirror nbsym T n mx mn m) (EMD.rightMirror nbsym (T.map val) n mx mn m) := by
  unfold EMD.rightMirror
  refine (track_mirrorTimes hE T hT m.sym m.mn).bind fun a a' ha => ?_
  refine (track_mirrorTimes hE T hT m.sym m.mx).bind fun b b' hb => ?_
  obtain ⟨ha1, rfl⟩ := ha
  obtain ⟨hb1, rfl⟩ := hb
  refine (track_get a (-1)).bind fun x x' hx => ?_
  obtain ⟨hx, rfl⟩ := hx
  refine (track_get T (-1)).bind fun t t' ht => ?_
  obtain ⟨ht, rfl⟩ := ht
  refine (track_get b (-1)).bind fun y y' hy => ?_
  obtain ⟨hy, rfl⟩ := hy
  have c : (x < t ∨ y < t) ↔ (x.val < t.val ∨ y.val < t.val) := by
    rw [lt_iff (ha1 _ hx).finite (hT _ ht).wide.finite, lt_iff (hb1 _ hy).finite (hT _ ht).wide.finite]
  by_cases hc : x.val < t.val ∨ y.val < t.val
  · rw [if_pos hc, if_pos (c.2 hc)]
    refine (Tracks.refl (pyGet mx (-1))).bind fun p p' hp => ?_
    subst hp
    dsimp only
    split <;> split <;> first
      | exact rfl
      | (refine (track_mirrorTimes hE T hT _ _).bind fun a a' ha => ?_
         refine (track_mirrorTimes hE T hT _ _).bind fun b b' hb => ?_
         exact Tracks.ok ⟨hb, ha, rfl, rfl⟩)
  · rw [if_neg hc, if_neg (fun h => hc (c.1 h))]
    exact Tracks.ok ⟨⟨hb1, rfl⟩, ⟨ha1, rfl⟩, rfl, rfl⟩

/-- Knots and their values. -/
noncomputable def vals (p : Ieee f e E × Ieee f e E) : ℝ × ℝ := (p.1.val, p.2.val)

theorem dropDup_val (l : List (Ieee f e E × Ieee f e E)) (hl : ∀ p ∈ l, p.1.isFinite = true) :
    EMD.dropDupKnots (l.map vals) = (EMD.dropDupKnots l).map vals := by
  induction l with
  | nil => rfl
  | cons p l ih =>
    cases l with
    | nil => rfl
    | cons q r =>
      have h1 := ih (fun x hx => hl x (List.mem_cons_of_mem _ hx))
      rw [List.map_cons] at h1
      rw [List.map_cons, List.map_cons, EMD.dropDupKnots, EMD.dropDupKnots, h1]
      have h2 : ((vals q).1 == (vals p).1) = (q.1 == p.1) := by
        apply bool_eq_of_iff
        rw [beq_iff q.1 p.1 (hl q (by simp)) (hl p (by simp)), beq_iff_eq]
        rfl
      rw [h2]
      split <;> rfl

theorem dropDup_subset {A : Type} [BEq A] (l : List (A × A)) : ∀ p ∈ EMD.dropDupKnots l, p ∈ l := by
  induction l with
  | nil => intro p hp; exact hp
  | cons a l ih =>
    cases l with
    | nil => intro p hp; exact hp
    | cons q r =>
      intro p hp
      rw [EMD.dropDupKnots] at hp
      split at hp
      · exact List.mem_cons_of_mem _ (ih p hp)
      · rcases List.mem_cons.1 hp with rfl | hp
        · exact List.mem_cons_self
        · exact List.mem_cons_of_mem _ (ih p hp)

theorem zip_vals (a b : List (Ieee f e E)) : (a.map val).zip (b.map val) = (a.zip b).map vals := by
  rw [List.zip_map]
  rfl

/-- Knots: positions are integers, values are samples. -/
def KnotsRel (S : List (Ieee f e E)) (a : List (Ieee f e E × Ieee f e E)) (b : List (ℝ × ℝ)) : Prop :=
  (∀ p ∈ a, Wide p.1 ∧ p.2 ∈ S) ∧ b = a.map vals

theorem knots_rel (S a b : List (Ieee f e E)) (ha : ∀ x ∈ a, Wide x) (hb : ∀ x ∈ b, x ∈ S) :
    KnotsRel S (EMD.dropDupKnots (a.zip b)) (EMD.dropDupKnots ((a.map val).zip (b.map val))) := by
  rw [zip_vals, dropDup_val _ (fun p hp => (ha _ (List.of_mem_zip hp).1).finite)]
  refine ⟨fun p hp => ?_, rfl⟩
  have := List.of_mem_zip (dropDup_subset _ _ hp)
  exact ⟨ha _ this.1, hb _ this.2⟩

theorem map_toInt (l : List (Ieee f e E)) (hl : ∀ x ∈ l, Wide x) : l.map toInt = (l.map val).map toInt := by
  rw [List.map_map]
  exact List.map_congr_left fun x hx => (hl x hx).toInt

theorem track_points (hE : f + 2 ≤ E) (nbsym : Int) (T S maxPos minPos : List (Ieee f e E)) (hT : ∀ x ∈ T, Stamp x)
    (hS : ∀ x ∈ S, x.isFinite = true) (hmax : ∀ x ∈ maxPos, Wide x) (hmin : ∀ x ∈ minPos, Wide x) :
    Tracks (fun a b => KnotsRel S a.1 b.1 ∧ KnotsRel S a.2 b.2) (EMD.preparePointsSimple nbsym T S maxPos minPos)
      (EMD.preparePointsSimple nbsym (T.map val) (S.map val) (maxPos.map val) (minPos.map val)) := by
  unfold EMD.preparePointsSimple
  dsimp only
  rw [← map_toInt _ hmax, ← map_toInt _ hmin, ← leftBound_val nbsym S hS, ← rightBound_val nbsym S hS, List.length_map]
  refine (Tracks.refl _).bind fun l _ h => ?_
  subst h
  refine (Tracks.refl _).bind fun r _ h => ?_
  subst h
  refine (track_leftMirror hE nbsym T hT _ _ _).bind fun l l' hl => ?_
  obtain ⟨⟨hl1, el1⟩, ⟨hl2, el2⟩, el3, el4⟩ := hl
  refine (track_rightMirror hE nbsym T hT _ _ _ _).bind fun r r' hr => ?_
  obtain ⟨⟨hr1, er1⟩, ⟨hr2, er2⟩, er3, er4⟩ := hr
  rw [← el3, ← el4, ← er3, ← er4, el1, el2, er1, er2]
  refine (track_take S _).bind fun z1 _ h => ?_
  obtain ⟨m1, rfl⟩ := h
  refine (track_take S _).bind fun z2 _ h => ?_
  obtain ⟨m2, rfl⟩ := h
  refine (track_take S _).bind fun z3 _ h => ?_
  obtain ⟨m3, rfl⟩ := h
  refine (track_take S _).bind fun z4 _ h => ?_
  obtain ⟨m4, rfl⟩ := h
  refine (track_take T _).bind fun t1 _ h => ?_
  obtain ⟨m5, rfl⟩ := h
  refine (track_take T _).bind fun t2 _ h => ?_
  obtain ⟨m6, rfl⟩ := h
  refine (track_take S _).bind fun z5 _ h => ?_
  obtain ⟨m7, rfl⟩ := h
  refine (track_take S _).bind fun z6 _ h => ?_
  obtain ⟨m8, rfl⟩ := h
  refine Tracks.ok ⟨?_, ?_⟩
  · dsimp only
    rw [← List.map_append, ← List.map_append, ← List.map_append, ← List.map_append]
    refine knots_rel S _ _ ?_ ?_
    · simp only [List.mem_append]
      rintro x ((h | h) | h)
      · exact hl1 x h
      · exact (hT _ (m6 x h)).wide
      · exact hr1 x h
    · simp only [List.mem_append]
      rintro x ((h | h) | h)
      · exact m1 x h
      · exact m8 x h
      · exact m3 x h
  · dsimp only
    rw [← List.map_append, ← List.map_append, ← List.map_append, ← List.map_append]
    refine knots_rel S _ _ ?_ ?_
    · simp only [List.mem_append]
      rintro x ((h | h) | h)
      · exact hl2 x h
      · exact (hT _ (m5 x h)).wide
      · exact hr2 x h
    · simp only [List.mem_append]
      rintro x ((h | h) | h)
      · exact m2 x h
      · exact m7 x h
      · exact m4 x h

end Ieee
end PyEMD
