import Verif.Lemmas.NegateExtrema
import Verif.Lemmas.Symmetric
import Verif.Spec.Interp
import Verif.Spec.Samples

/-!
# Negating the signal negates the decomposition (C14)
-/

set_option linter.unusedSectionVars false

namespace PyEMD
namespace EMD
open Spec

section
variable {α : Type} [Add α] [Sub α] [Mul α] [Div α] [Neg α] [LT α] [LE α] [BEq α] [DecidableLT α] [DecidableLE α] [NpScalar α] [Symmetric α]

theorem ok_bind {β γ : Type} (a : β) (f : β → PyM γ) : ((Except.ok a : PyM β) >>= f) = f a := rfl

theorem vneg_vneg (l : List α) : vneg (vneg l) = l := by
  simp [vneg, Function.comp_def, Symmetric.neg_neg]

theorem vsub_vneg (a b : List α) : vsub (vneg a) (vneg b) = vneg (vsub a b) := by
  simp only [vsub, vneg, List.zipWith_map, List.map_zipWith, sub_neg_neg]

theorem vadd_vneg (a b : List α) : vadd (vneg a) (vneg b) = vneg (vadd a b) := by
  simp only [vadd, vneg, List.zipWith_map, List.map_zipWith, Symmetric.neg_add_neg]

theorem sumRows_vneg (n : Nat) (rows : List (List α)) : sumRows n (rows.map vneg) = vneg (sumRows n rows) := by
  have key : ∀ (rows : List (List α)) (acc : List α), (rows.map vneg).foldl vadd (vneg acc) = vneg (rows.foldl vadd acc) := by
    intro rows
    induction rows with
    | nil => intro acc; rfl
    | cons r rows ih => intro acc; simp only [List.map_cons, List.foldl_cons, vadd_vneg, ih]
  have : (vzeros n : List α) = vneg (vzeros n) := by simp [vzeros, vneg, neg_lit_zero]
  unfold sumRows
  conv_lhs => rw [this]
  exact key rows _

theorem sum_sq_vneg (l : List α) : npSum ((vneg l).map (fun x => x * x)) = npSum (l.map (fun x => x * x)) := by
  congr 1
  simp [vneg, Function.comp_def, mul_neg_neg]

theorem npMax_vneg {l : List α} (h : l ≠ []) : npMax (vneg l) = -npMin l := Symmetric.npMax_neg l h

theorem npMin_vneg {l : List α} (h : l ≠ []) : npMin (vneg l) = -npMax l := by
  have h' : vneg l ≠ [] := by simpa [vneg] using h
  have := npMax_vneg h'
  rw [vneg_vneg] at this
  rw [this, Symmetric.neg_neg]

theorem pyMax_vneg (l : List α) : pyMax (vneg l) = (pyMin l).map (fun x => -x) := by
  cases l with
  | nil => rfl
  | cons a l =>
    show Except.ok ((l.map fun x => -x).foldl (fun m y => if m < y then y else m) (-a)) = Except.ok (-(l.foldl (fun m y => if y < m then y else m) a))
    congr 1
    induction l generalizing a with
    | nil => rfl
    | cons b l ih =>
      simp only [List.map_cons, List.foldl_cons, Symmetric.neg_lt_neg]
      rw [← ih]
      split <;> rfl

theorem pyMin_vneg (l : List α) : pyMin (vneg l) = (pyMax l).map (fun x => -x) := by
  cases l with
  | nil => rfl
  | cons a l =>
    show Except.ok ((l.map fun x => -x).foldl (fun m y => if y < m then y else m) (-a)) = Except.ok (-(l.foldl (fun m y => if m < y then y else m) a))
    congr 1
    induction l generalizing a with
    | nil => rfl
    | cons b l ih =>
      simp only [List.map_cons, List.foldl_cons, Symmetric.neg_lt_neg]
      rw [← ih]
      split <;> rfl

theorem pyAbs_neg (x : α) : pyAbs (-x) = pyAbs x := by
  unfold pyAbs
  by_cases h1 : x < lit 0
  · rw [if_pos h1, if_neg (fun h => Symmetric.lt_asymm _ _ h1 ((neg_lt_zero' _).1 h))]
  · rw [if_neg h1]
    by_cases h2 : lit 0 < x
    · rw [if_pos ((neg_lt_zero' _).2 h2), Symmetric.neg_neg]
    · rw [if_neg (fun h => h2 ((neg_lt_zero' _).1 h)), Symmetric.neg_eq x h1 h2]

theorem endCondition_vneg (cfg : Cfg α) (S : List α) (IMF : List (List α)) :
    endCondition cfg (vneg S) (IMF.map vneg) = endCondition cfg S IMF := by
  unfold endCondition
  rw [vneg_length, sumRows_vneg, vsub_vneg]
  generalize vsub S (sumRows S.length IMF) = r
  cases r with
  | nil => rfl
  | cons x r =>
    have hne : x :: r ≠ [] := by simp
    have e : ((vneg (x :: r)).map pyAbs : List α) = (x :: r).map pyAbs := by
      rw [vneg, List.map_map]
      apply List.map_congr_left
      intro y _
      simp [pyAbs_neg]
    simp only [npMaxE, npMinE, e, npMax_vneg hne, npMin_vneg hne]
    simp only [vneg, List.map_cons, List.isEmpty_cons, Bool.false_eq_true, if_false, bind, Except.bind]
    rw [Symmetric.neg_sub_neg]

theorem any_kneg (k : List (α × α)) : (kneg k).any (fun p => decide (p.2 < lit 0)) = k.any (fun p => decide (lit 0 < p.2)) ∧
    (kneg k).any (fun p => decide (lit 0 < p.2)) = k.any (fun p => decide (p.2 < lit 0)) := by
  simp [kneg, List.any_map, Function.comp_def, neg_lt_zero', zero_lt_neg']

theorem checkImf_vneg (cfg : Cfg α) (a b : List α) (k k' : List (α × α)) :
    checkImf cfg (vneg a) (vneg b) (kneg k') (kneg k) = checkImf cfg a b k k' := by
  unfold checkImf
  rw [(any_kneg k').1, (any_kneg k).2, Bool.or_comm]
  simp only [sum_sq_vneg, vsub_vneg]
  have e0 : (vneg a).any (fun x => x == lit 0) = a.any (fun x => x == lit 0) := by
    simp only [vneg, List.any_map, Function.comp_def, Symmetric.neg_beq]
  have e1 : a.any (fun x => x == lit 0) = false →
      List.zipWith (fun a b => a / b) (vneg (vsub a b)) (vneg a) = List.zipWith (fun a b => a / b) (vsub a b) a := by
    intro ha
    generalize vsub a b = c
    clear e0
    induction a generalizing c with
    | nil => simp [vneg]
    | cons x a ih =>
      cases c with
      | nil => rfl
      | cons y c =>
        rw [List.any_cons, Bool.or_eq_false_iff] at ha
        show -y / -x :: _ = y / x :: _
        rw [Symmetric.neg_div_neg _ _ ha.1]
        exact congrArg _ (ih ha.2 c)
  have e2 : ∀ t : α, (!(a.any fun x => x == lit 0) &&
        decide (npSum ((List.zipWith (fun a b => a / b) (vneg (vsub a b)) (vneg a)).map (fun x => x * x)) < t)) =
      (!(a.any fun x => x == lit 0) && decide (npSum ((List.zipWith (fun a b => a / b) (vsub a b) a).map (fun x => x * x)) < t)) := by
    intro t
    cases ha : a.any (fun x => x == lit 0) with
    | true => rfl
    | false => rw [e1 ha]
  rw [e0]
  simp only [e2]
  rw [pyMax_vneg, pyMin_vneg]
  cases hx : pyMax b with
  | error e =>
    cases b with
    | nil =>
      injection hx with hx
      subst hx
      rfl
    | cons x b => cases hx
  | ok mx =>
    cases hn : pyMin b with
    | error e =>
      cases b with
      | nil => cases hx
      | cons x b => cases hn
    | ok mn =>
      simp only [bind, Except.bind, Except.map, Symmetric.neg_sub_neg]

/-- Detection on the negated signal. -/
theorem findExtremaSimple_vneg (T x : List α) : RelE (fun (e e' : Extrema α) => e'.maxPos = e.minPos ∧ e'.minPos = e.maxPos ∧ e'.indzer = e.indzer)
    (findExtremaSimple T x) (findExtremaSimple T (vneg x)) := by
  unfold findExtremaSimple
  rw [extremaIdx_vneg, zeroCrossings_vneg]
  have hnf : NoFuel (extremaIdx x) := extremaIdx_noFuel x
  cases h : extremaIdx x with
  | error e => exact Iff.rfl
  | ok p =>
    obtain ⟨mx, mn⟩ := p
    simp only [ok_bind, Except.map, Prod.swap]
    have hl : ∀ idx : List Int, (∃ u v, pyTake x idx = .ok u ∧ pyTake (vneg x) idx = .ok v) ∨ ∃ e, e ≠ .outOfFuel ∧ pyTake x idx = .error e ∧ pyTake (vneg x) idx = .error e := by
      intro idx
      rw [pyTake_vneg]
      cases hh : pyTake x idx with
      | ok u => exact Or.inl ⟨u, _, rfl, rfl⟩
      | error e => exact Or.inr ⟨e, fun hc => pyTake_noFuel x idx (by rw [hh, hc]), rfl, rfl⟩
    have ht : ∀ idx : List Int, (∃ u, pyTake T idx = .ok u) ∨ ∃ e, e ≠ .outOfFuel ∧ pyTake T idx = .error e := by
      intro idx
      cases hh : pyTake T idx with
      | ok u => exact Or.inl ⟨u, rfl⟩
      | error e => exact Or.inr ⟨e, fun hc => pyTake_noFuel T idx (by rw [hh, hc]), rfl⟩
    rcases ht (mx.map (fun k : Nat => (k : Int))) with ⟨a1, h1⟩ | ⟨e1, n1, h1⟩ <;>
    rcases ht (mn.map (fun k : Nat => (k : Int))) with ⟨a2, h2⟩ | ⟨e2, n2, h2⟩ <;>
    rcases hl (mx.map (fun k : Nat => (k : Int))) with ⟨a3, b3, h3, g3⟩ | ⟨e3, n3, h3, g3⟩ <;>
    rcases hl (mn.map (fun k : Nat => (k : Int))) with ⟨a4, b4, h4, g4⟩ | ⟨e4, n4, h4, g4⟩ <;>
    simp only [h1, h2, h3, h4, g3, g4, bind, Except.bind, pure, Except.pure, RelE] <;> simp [*]

/-- In simple mode negation exchanges maxima and minima, so counts are unchanged. -/
theorem countExt_vneg {cfg : Cfg α} (hd : cfg.detection = .simple) (T x : List α) :
    RelE Eq (countExt cfg T x) (countExt cfg T (vneg x)) := by
  unfold countExt
  rw [hd]
  refine (findExtremaSimple_vneg T x).bind ?_
  rintro e e' - - ⟨h1, h2, h3⟩
  refine .pure ?_
  rw [h1, h2, h3, Int.add_comm]

theorem det3_neg1 (a b c d e f g h i : α) : det3 (-a) b c (-d) e f (-g) h i = -det3 a b c d e f g h i := by
  unfold det3
  simp only [Symmetric.neg_mul, Symmetric.mul_neg, sub_neg_neg, Symmetric.neg_add_neg]
theorem det3_neg2 (a b c d e f g h i : α) : det3 a (-b) c d (-e) f g (-h) i = -det3 a b c d e f g h i := by
  unfold det3
  simp only [Symmetric.neg_mul, Symmetric.mul_neg, sub_neg_neg, Symmetric.neg_add_neg]
theorem det3_neg3 (a b c d e f g h i : α) : det3 a b (-c) d e (-f) g h (-i) = -det3 a b c d e f g h i := by
  unfold det3
  simp only [Symmetric.neg_mul, Symmetric.mul_neg, sub_neg_neg, Symmetric.neg_add_neg]

theorem spline3Slopes_neg (x0 x1 x2 y0 y1 y2 : α) : spline3Slopes x0 x1 x2 (-y0) (-y1) (-y2) =
    (spline3Slopes x0 x1 x2 y0 y1 y2).map (fun k => (-k.1, -k.2.1, -k.2.2)) := by
  unfold spline3Slopes
  simp only [sub_neg_neg, Symmetric.mul_neg, Symmetric.neg_mul]
  unfold solve3
  rw [Symmetric.neg_add_neg]
  simp only [det3_neg1, det3_neg2, det3_neg3, Symmetric.neg_div]
  split <;> rfl

theorem spline3Seg_neg (ya yb a b t : α) : spline3Seg (-ya) (-yb) (-a) (-b) t = -spline3Seg ya yb a b t := by
  unfold spline3Seg
  simp only [Symmetric.neg_mul, Symmetric.mul_neg, Symmetric.neg_add_neg]

theorem cubicSpline3pts_neg (X Y T : List α) : cubicSpline3pts X (vneg Y) T = (cubicSpline3pts X Y T).map (fun r => (r.1, vneg r.2)) := by
  match X, Y with
  | [x0, x1, x2], [y0, y1, y2] =>
    unfold cubicSpline3pts
    simp only [vneg, List.map_cons, List.map_nil]
    rw [spline3Slopes_neg]
    cases spline3Slopes x0 x1 x2 y0 y1 y2 with
    | error e => rfl
    | ok k =>
      obtain ⟨k0, k1, k2⟩ := k
      simp only [bind, Except.bind, Except.map, pure, Except.pure, List.map_append, List.map_map, Function.comp_def]
      simp only [← spline3Seg_neg, sub_neg_neg, Symmetric.neg_mul, Symmetric.neg_add_neg]
  | [], _ => rfl
  | [_], _ => rfl
  | [_, _], _ => rfl
  | _ :: _ :: _ :: _ :: _, _ => rfl
  | [_, _, _], [] => rfl
  | [_, _, _], [_] => rfl
  | [_, _, _], [_, _] => rfl
  | [_, _, _], _ :: _ :: _ :: _ :: _ => rfl

theorem ofScipy_odd {f : Interp α} (h : Odd f) (X Y t : List α) : ofScipy (f X (vneg Y) t) = (ofScipy (f X Y t)).map vneg := by
  rw [show vneg Y = Y.map (fun y => -y) from rfl, h]
  cases f X Y t <;> rfl

theorem splinePoints_neg {sp : SciPy α} (ho : OddAll sp) (kind : SplineKind) (T : List α) (k : List (α × α)) :
    splinePoints sp kind T (kneg k) = (splinePoints sp kind T k).map (fun r => (r.1, vneg r.2)) := by
  obtain ⟨o1, o2, o3, o4, o5, o6, o7⟩ := ho
  have eX : (kneg k).map (·.1) = k.map (·.1) := by simp [kneg, Function.comp_def]
  have eY : (kneg k).map (·.2) = vneg (k.map (·.2)) := by simp [kneg, vneg, Function.comp_def]
  have eL : (kneg k).length = k.length := by simp [kneg]
  unfold splinePoints
  simp only [eX, eY, eL]
  cases pyGet (k.map (·.1)) 0 with
  | error e => rfl
  | ok x0 =>
    cases pyGet (k.map (·.1)) (-1) with
    | error e => rfl
    | ok xL =>
      simp only [ok_bind]
      have fin : ∀ (f : Interp α) (t T' : List α), Odd f →
          (ofScipy (f (k.map (·.1)) (vneg (k.map (·.2))) t) >>= fun v => pure (T', v)) =
          Except.map (fun r => (r.1, vneg r.2)) (ofScipy (f (k.map (·.1)) (k.map (·.2)) t) >>= fun v => (pure (T', v) : PyM (List α × List α))) := by
        intro f t T' hf
        rw [ofScipy_odd hf]
        cases ofScipy (f (k.map (·.1)) (k.map (·.2)) t) <;> rfl
      cases kind with
      | akima => exact fin _ _ _ o1
      | cubic =>
        dsimp only
        split
        · exact fin _ _ _ o2
        · exact cubicSpline3pts_neg _ _ _
      | pchip => exact fin _ _ _ o3
      | cubicHermite => exact fin _ _ _ o4
      | slinear => exact fin _ _ _ o5
      | quadratic => exact fin _ _ _ o6
      | linear => exact fin _ _ _ o7
      | unknown => rfl

theorem bcast_add_swap (a b : List α) : bcast (fun x y => x + y) (vneg b) (vneg a) = (bcast (fun x y => x + y) a b).map vneg := by
  unfold bcast
  rw [vneg_length, vneg_length]
  by_cases h : a.length = b.length
  · rw [if_pos h, if_pos h.symm]
    simp only [Except.map, vneg, List.zipWith_map, List.map_zipWith]
    rw [List.zipWith_comm]
    congr 2
    funext x y
    rw [Symmetric.neg_add_neg, Symmetric.add_comm]
  · rw [if_neg h, if_neg (Ne.symm h)]
    have e1 : ∀ x y : α, -x + -y = -(y + x) := fun x y => by rw [Symmetric.neg_add_neg, Symmetric.add_comm]
    match a, b, h with
    | [x], [], _ => rfl
    | [x], y :: y' :: b, _ =>
      simp only [vneg, List.map_cons, List.map_nil, Except.map, List.map_map, Function.comp_def, e1]
    | [x], [y], h => simp at h
    | [], [y], _ => rfl
    | x :: x' :: a, [y], _ =>
      simp only [vneg, List.map_cons, List.map_nil, Except.map, List.map_map, Function.comp_def, e1]
    | [], [], h => simp at h
    | [], y :: y' :: b, _ => rfl
    | x :: x' :: a, [], _ => rfl
    | x :: x' :: a, y :: y' :: b, _ => rfl

theorem assignAll_vneg (n : Nat) (l : List α) : assignAll n (vneg l) = (assignAll n l).map vneg := by
  unfold assignAll
  rw [vneg_length]
  split
  · rfl
  · match l with
    | [] => rfl
    | [x] => simp [vneg, Except.map]
    | x :: y :: l => rfl

theorem splinePoints_noFuel' (sp : SciPy α) (kind : SplineKind) (T : List α) (k : List (α × α)) : NoFuel (splinePoints sp kind T k) := by
  exact splinePoints_noFuel sp kind T k

/-- Distinct samples have distinct positions. -/
theorem positions_disjoint {T x : List α} (hT : (T.map toInt).Nodup) {e : Extrema α} (h : findExtremaSimple T x = .ok e) :
    ∀ i ∈ e.maxPos.map toInt, i ∉ e.minPos.map toInt := by
  unfold findExtremaSimple at h
  simp only [bind_eq_ok, pure_eq_ok] at h
  obtain ⟨⟨mx, mn⟩, hi, a, ha, b, -, c, hc, d, -, rfl⟩ := h
  have key : ∀ (idx : List Nat) (l : List α), pyTake T (idx.map (fun k : Nat => (k : Int))) = .ok l → ∀ i ∈ l.map toInt,
      ∃ k ∈ idx, (T.map toInt)[k]? = some i := by
    intro idx l hl i hi
    obtain ⟨y, hy, rfl⟩ := List.mem_map.1 hi
    obtain ⟨k, hk⟩ := List.mem_iff_getElem?.1 hy
    obtain ⟨j, h1, h2⟩ := pyTake_get hl hk
    rw [List.getElem?_map] at h1
    cases h3 : idx[k]? with
    | none => rw [h3] at h1; cases h1
    | some q =>
      rw [h3] at h1
      simp only [Option.map_some, Option.some.injEq] at h1
      subst h1
      refine ⟨q, List.mem_of_getElem? h3, ?_⟩
      rw [List.getElem?_map]
      unfold pyGet at h2
      cases h4 : pyIdx T.length (q : Int) with
      | none => rw [h4] at h2; cases h2
      | some r =>
        rw [h4] at h2
        dsimp only at h2
        have : r = q := by
          unfold pyIdx at h4
          split at h4
          · split at h4
            · injection h4 with h4; omega
            · cases h4
          · omega
        subst this
        cases h5 : T[r]? with
        | none => rw [h5] at h2; cases h2
        | some z =>
          rw [h5] at h2
          injection h2 with h2
          rw [h2]; rfl
  intro i h1 h2
  obtain ⟨k, hk, e1⟩ := key mx a ha i h1
  obtain ⟨k', hk', e2⟩ := key mn c hc i h2
  have : k = k' := by
    have h3 : k < (T.map toInt).length := (List.getElem?_eq_some_iff.1 e1).1
    exact (List.getElem?_inj h3 hT).1 (e1.trans e2.symm)
  subst this
  exact extremaIdx_disjoint hi k hk hk'

/-- One sifting step of the negated proto-IMF. -/
theorem siftOnce_vneg {sp : SciPy α} (ho : OddAll sp) {cfg : Cfg α} (hd : cfg.detection = .simple) (T x : List α) (hT : (T.map toInt).Nodup) :
    RelE (fun r r' => r' = (vneg r.1, kneg r.2.2, kneg r.2.1)) (siftOnce sp cfg T x) (siftOnce sp cfg T (vneg x)) := by
  unfold siftOnce extractMaxMinSpline
  rw [hd]
  simp only [bind_assoc]
  refine (findExtremaSimple_vneg T x).bind ?_
  rintro ⟨P, PV, Q, QV, I⟩ ⟨P', PV', Q', QV', I'⟩ he - ⟨h1, h2, h3⟩
  have hdis := positions_disjoint hT he
  dsimp only at h1 h2 h3 hdis
  subst h1; subst h2; subst h3
  dsimp only
  by_cases hc : Q'.length + P'.length < 3
  · rw [if_pos hc, if_pos (by omega)]
    exact Iff.rfl
  · rw [if_neg hc, if_neg (by omega)]
    simp only [bind_assoc]
    refine RelE.bind (R := fun r r' => r' = (kneg r.2, kneg r.1)) (preparePointsSimple_swap cfg.nbsym T x _ _ hdis) ?_
    rintro ⟨kx, kn⟩ _ - - rfl
    dsimp only
    refine RelE.bind_swap (splinePoints_noFuel' _ _ _ _) (splinePoints_noFuel' _ _ _ _)
      (.of_eq (f := fun r => (r.1, vneg r.2)) (R := fun r r' => r' = (r.1, vneg r.2)) (fun _ => rfl) (splinePoints_neg ho _ _ _))
      (.of_eq (f := fun r => (r.1, vneg r.2)) (R := fun r r' => r' = (r.1, vneg r.2)) (fun _ => rfl) (splinePoints_neg ho _ _ _)) ?_
    rintro ⟨t1, q1⟩ ⟨t2, q2⟩ _ _ - - rfl rfl
    simp only [pure_bind]
    refine (RelE.of_eq (f := vneg) (R := fun r r' => r' = vneg r) (fun _ => rfl) (bcast_add_swap q1 q2)).bind ?_
    rintro s _ - - rfl
    have e : (vneg s).map (fun x => lit (1 / 2) * x) = vneg (s.map (fun x => lit (1 / 2) * x)) := by
      simp [vneg, Function.comp_def, Symmetric.mul_neg]
    rw [e, vneg_length]
    refine (RelE.of_eq (f := vneg) (R := fun r r' => r' = vneg r) (fun _ => rfl) (assignAll_vneg _ _)).bind ?_
    rintro mean _ - - rfl
    exact .pure (by rw [vsub_vneg])

/-- Negated sifting state. -/
def Sift.neg (s : Sift α) : Sift α := { s with imf := vneg s.imf }

/-- Negated outcome of a sifting step. -/
def SiftStep.neg : SiftStep α → SiftStep α
  | .brk s why => .brk s.neg why
  | .cont s => .cont s.neg

/-- Negated component. -/
def Round.neg (r : Round α) : Round α := { r with imf := vneg r.imf }

theorem siftBody_vneg {sp : SciPy α} (ho : OddAll sp) {cfg : Cfg α} (hd : cfg.detection = .simple) (T : List α) (hT : (T.map toInt).Nodup)
    (s : Sift α) : RelE (fun r r' => r' = SiftStep.neg r) (siftBody sp cfg T s) (siftBody sp cfg T s.neg) := by
  unfold siftBody
  dsimp only [Sift.neg]
  split
  · exact .pure rfl
  · refine (countExt_vneg hd T _).bind ?_
    rintro ⟨e, z⟩ _ - - rfl
    dsimp only
    split
    · refine (siftOnce_vneg ho hd T s.imf hT).bind ?_
      rintro ⟨y, kx, kn⟩ _ - - rfl
      dsimp only
      split
      · split
        · exact .pure rfl
        · exact .pure rfl
      · split
        · refine (countExt_vneg hd T _).bind ?_
          rintro ⟨e', z'⟩ _ - - rfl
          dsimp only
          split
          · exact .pure rfl
          · split <;> split
            · exact .pure rfl
            · exact .pure rfl
            · exact .pure rfl
            · exact .pure rfl
        · refine (countExt_vneg hd T _).bind ?_
          rintro ⟨e', z'⟩ _ - - rfl
          dsimp only
          rw [checkImf_vneg]
          refine (RelE.refl _).bind ?_
          rintro f _ - - rfl
          split
          · exact .pure rfl
          · exact .pure rfl
    · exact .pure rfl

theorem siftLoop_vneg {sp : SciPy α} (ho : OddAll sp) {cfg : Cfg α} (hd : cfg.detection = .simple) (T : List α) (hT : (T.map toInt).Nodup)
    (fuel : Nat) (s : Sift α) :
    RelE (fun r r' => r' = (r.1.neg, r.2)) (siftLoop sp cfg T fuel s) (siftLoop sp cfg T fuel s.neg) := by
  induction fuel generalizing s with
  | zero => exact Iff.rfl
  | succ fuel ih =>
    unfold siftLoop
    refine (siftBody_vneg ho hd T hT s).bind ?_
    rintro r _ - - rfl
    cases r with
    | brk s' why => exact .pure rfl
    | cont s' => exact ih s'

theorem emdRound_vneg {sp : SciPy α} (ho : OddAll sp) {cfg : Cfg α} (hd : cfg.detection = .simple) (T : List α) (hT : (T.map toInt).Nodup)
    (S : List α) (IMF : List (List α)) (e : Int) :
    RelE (fun r r' => r' = (r.1.neg, r.2)) (emdRound sp cfg T S IMF e) (emdRound sp cfg T (vneg S) (IMF.map vneg) e) := by
  unfold emdRound
  rw [vneg_length, sumRows_vneg, vsub_vneg]
  exact siftLoop_vneg ho hd T hT _ _

theorem emdLoop_vneg {sp : SciPy α} (ho : OddAll sp) {cfg : Cfg α} (hd : cfg.detection = .simple) (T : List α) (hT : (T.map toInt).Nodup)
    (S : List α) (m : Int) (fuel : Nat) (rounds : List (Round α)) (e : Int) :
    RelE (fun r r' => r' = (r.1.map Round.neg, r.2)) (emdLoop sp cfg T S m fuel rounds e)
      (emdLoop sp cfg T (vneg S) m fuel (rounds.map Round.neg) e) := by
  induction fuel generalizing rounds e with
  | zero => exact Iff.rfl
  | succ fuel ih =>
    have hm : ∀ l : List (Round α), (l.map Round.neg).map (fun x : Round α => x.imf) = (l.map (fun x : Round α => x.imf)).map vneg := by
      intro l
      simp [Round.neg, Function.comp_def]
    unfold emdLoop
    rw [hm]
    refine (emdRound_vneg ho hd T hT S _ e).bind ?_
    rintro ⟨s, why⟩ _ hr - rfl
    dsimp only
    have happ : rounds.map Round.neg ++ [({ imf := s.neg.imf, why := why, subs := s.neg.subs, nh := s.neg.nh } : Round α)] =
        (rounds ++ [({ imf := s.imf, why := why, subs := s.subs, nh := s.nh } : Round α)]).map Round.neg := by simp [Round.neg, Sift.neg]
    rw [happ, hm, endCondition_vneg]
    refine (RelE.refl _).bind ?_
    rintro f _ - - rfl
    rw [List.length_map]
    split
    · exact .pure rfl
    · exact ih _ _

theorem finish_vneg (S : List α) (IMF : List (List α)) (e : Int) :
    finish (vneg S) (IMF.map vneg) e =
      { rows := (finish S IMF e).rows.map vneg, imfs := (finish S IMF e).imfs.map vneg, residue := vneg (finish S IMF e).residue } := by
  unfold finish
  have h1 : (if e ≤ 2 then (IMF.map vneg).dropLast else IMF.map vneg) = (if e ≤ 2 then IMF.dropLast else IMF).map vneg := by
    split
    · rw [List.map_dropLast]
    · rfl
  have h2 : ∀ l : List α, allclose0 (vneg l) = allclose0 l := by
    intro l
    simp only [allclose0, vneg, List.all_map, Function.comp_def, pyAbs_neg]
  dsimp only
  rw [h1, vneg_length, sumRows_vneg, vsub_vneg, h2]
  generalize (if e ≤ 2 then IMF.dropLast else IMF) = I
  congr 1
  split
  · rfl
  · simp

/-- The whole decomposition of the negated signal. -/
theorem emdPure_vneg (fuel : Nat) {sp : SciPy α} (ho : OddAll sp) {cfg : Cfg α} (hd : cfg.detection = .simple) (S : List α)
    (T : Option (List α)) (hT : ∀ T', prepareTime cfg S T = .ok T' → (T'.map toInt).Nodup) (m : Int) :
    RelE (fun r r' => r' = ({ rows := r.rows.map vneg, imfs := r.imfs.map vneg, residue := vneg r.residue } : Result α))
      (emdPure fuel sp cfg S T m) (emdPure fuel sp cfg (vneg S) T m) := by
  have h1 : prepareTime cfg (vneg S) T = prepareTime cfg S T := by
    unfold prepareTime
    rw [vneg_length]
  unfold emdPure emdRounds
  rw [h1]
  simp only [bind_assoc]
  refine (RelE.refl _).bind ?_
  rintro T' _ hT' - rfl
  refine (emdLoop_vneg ho hd T' (hT T' hT') S m fuel [] (-1)).bind ?_
  rintro ⟨rounds, e⟩ _ - - rfl
  dsimp only
  have hm : (rounds.map Round.neg).map (fun x : Round α => x.imf) = (rounds.map (fun x : Round α => x.imf)).map vneg := by
    simp [Round.neg, Function.comp_def]
  rw [hm, finish_vneg]
  exact .pure rfl

/-- The object after decomposing the negated signal. -/
theorem emd_vneg (fuel : Nat) (sp : SciPy α) (ho : OddAll sp) (o : Obj α) (hd : o.cfg.detection = .simple) (S : List α)
    (T : Option (List α)) (hT : ∀ T', prepareTime o.cfg S T = .ok T' → (T'.map toInt).Nodup) (m : Int) :
    (∀ rows o', Obj.emd fuel sp o S T m = (.ok rows, o') → ∃ o'', Obj.emd fuel sp o (S.map (fun x => -x)) T m =
        (.ok (rows.map (fun r => r.map (fun x => -x))), o'') ∧
      o''.cfg = o'.cfg ∧ o''.imfs = o'.imfs.map (fun l => l.map (fun r => r.map (fun x => -x))) ∧
      o''.residue = o'.residue.map (fun r => r.map (fun x => -x))) ∧
    ((∃ e, e ≠ .outOfFuel ∧ (Obj.emd fuel sp o S T m).1 = .error e) ↔
      (∃ e, e ≠ .outOfFuel ∧ (Obj.emd fuel sp o (S.map (fun x => -x)) T m).1 = .error e)) := by
  have h := emdPure_vneg fuel ho hd S T hT m
  unfold vneg at h
  unfold Obj.emd
  cases h1 : emdPure fuel sp o.cfg S T m with
  | ok r =>
    cases h2 : emdPure fuel sp o.cfg (S.map (fun x => -x)) T m with
    | error e => rw [h1, h2] at h; exact h.elim
    | ok r' =>
      rw [h1, h2] at h
      have h : r' = _ := h
      subst h
      refine ⟨?_, by simp⟩
      rintro rows o' hh
      dsimp only at hh
      obtain ⟨ha, hb⟩ := Prod.mk.inj hh
      injection ha with ha
      subst ha; subst hb
      exact ⟨_, rfl, rfl, rfl, rfl⟩
  | error e =>
    cases h2 : emdPure fuel sp o.cfg (S.map (fun x => -x)) T m with
    | ok r' => rw [h1, h2] at h; exact h.elim
    | error e' =>
      rw [h1, h2] at h
      have h : e = .outOfFuel ↔ e' = .outOfFuel := h
      refine ⟨?_, ?_⟩
      · rintro rows o' hh
        cases (Prod.mk.inj hh).1
      · constructor
        · rintro ⟨e₁, hn, he⟩
          injection he with he
          subst he
          exact ⟨e', fun hc => hn (h.2 hc), rfl⟩
        · rintro ⟨e₁, hn, he⟩
          injection he with he
          subst he
          exact ⟨e, fun hc => hn (h.1 hc), rfl⟩

theorem linAt_neg (k : List (α × α)) (t : α) : linAt (kneg k) t = -linAt k t := by
  match k with
  | [] => simp [kneg, linAt, neg_lit_zero]
  | [p] => rfl
  | p :: q :: r =>
    show (if t ≤ q.1 then -p.2 + (-q.2 - -p.2) / (q.1 - p.1) * (t - p.1) else linAt (kneg (q :: r)) t) =
      -(if t ≤ q.1 then p.2 + (q.2 - p.2) / (q.1 - p.1) * (t - p.1) else linAt (q :: r) t)
    rw [linAt_neg (q :: r) t]
    split
    · rw [sub_neg_neg, Symmetric.neg_div, Symmetric.neg_mul, Symmetric.neg_add_neg]
    · rfl

/-- Piecewise linear interpolation is odd. -/
theorem linSciPy_odd : OddAll (linSciPy : SciPy α) := by
  have key : ∀ X Y t : List α, some (t.map (linAt (X.zip (Y.map (fun y => -y))))) =
      (some (t.map (linAt (X.zip Y)))).map (fun q => q.map (fun y => -y)) := by
    intro X Y t
    rw [Option.map_some, List.map_map, show Y.map (fun y => -y) = vneg Y from rfl, zip_vneg]
    congr 1
    apply List.map_congr_left
    intro τ _
    exact linAt_neg _ _
  exact ⟨key, key, key, key, key, key, key⟩

end

variable {K : Type} [Field K] [LinearOrder K] [IsStrictOrderedRing K] [FloorRing K]

theorem prepareTime_cases (cfg : Cfg K) (hd : cfg.detection = .simple) (S : List K) (T : Option (List K)) :
    prepareTime cfg (vneg S) T = prepareTime cfg S T ∧ (∀ T', prepareTime cfg S T = .ok T' → T' = timeArr S.length) := by
  constructor
  · unfold prepareTime
    rw [vneg_length]
  · intro T' h
    by_cases hS : 2 ≤ S.length
    · by_cases hT : ∀ t, T = some t → t.length = S.length
      · rw [prepareTime_simple cfg hd S hS T hT] at h
        injection h with h
        exact h.symm
      · push Not at hT
        obtain ⟨t, rfl, ht⟩ := hT
        simp [prepareTime, Ne.symm ht] at h
    · have key : ∀ l : List K, (timeline S.length >>= normalizeTime) ≠ .ok l := by
        intro l
        rcases (by omega : S.length = 0 ∨ S.length = 1) with e | e
        · rw [e]; simp [timeline, bind, Except.bind]
        · rw [e]; simp [timeline, bind, Except.bind, normalizeTime, npDiff, pyGet, pyIdx, npMinE]
      exfalso
      unfold prepareTime at h
      cases T with
      | none => exact key T' h
      | some t =>
        dsimp only at h
        split at h
        · cases h
        · exact key T' h

/-- C14: with simple detection and odd interpolators, decomposing `-S` gives the negated rows, stores the negated IMFs and the
negated residue, and raises exactly when decomposing `S` raises. -/
theorem C14_negation (fuel : Nat) (sp : SciPy K) (ho : OddAll sp) (o : Obj K) (hd : o.cfg.detection = .simple) (S : List K)
    (T : Option (List K)) (m : Int) :
    (∀ rows o', Obj.emd fuel sp o S T m = (.ok rows, o') → ∃ o'', Obj.emd fuel sp o (S.map (fun x => -x)) T m =
        (.ok (rows.map (fun r => r.map (fun x => -x))), o'') ∧
      o''.cfg = o'.cfg ∧ o''.imfs = o'.imfs.map (fun l => l.map (fun r => r.map (fun x => -x))) ∧
      o''.residue = o'.residue.map (fun r => r.map (fun x => -x))) ∧
    ((∃ e, e ≠ .outOfFuel ∧ (Obj.emd fuel sp o S T m).1 = .error e) ↔
      (∃ e, e ≠ .outOfFuel ∧ (Obj.emd fuel sp o (S.map (fun x => -x)) T m).1 = .error e)) := by
  refine emd_vneg fuel sp ho o hd S T (fun T' hT' => ?_) m
  rw [(prepareTime_cases o.cfg hd S T).2 T' hT']
  have : (timeArr S.length : List K).map toInt = (List.range S.length).map (fun k : Nat => (k : Int)) := by
    rw [timeArr, List.map_map]
    apply List.map_congr_left
    intro k _
    exact toInt_natCast k
  rw [this]
  exact List.nodup_range.map (fun a b h => by exact_mod_cast h)

/-- A decomposition with several rows to which the theorem applies. -/
example : okWith (fun R : Result ℚ => decide (3 ≤ R.rows.length)) (emdPure 3 linSciPy (Cfg.default : Cfg ℚ) sampleS none 3) = true := by
  decide +kernel

example : ∃ o'', Obj.emd 3 linSciPy (⟨Cfg.default, none, none⟩ : Obj ℚ) (sampleS.map (fun x => -x)) none 3 =
    ((Obj.emd 3 linSciPy (⟨Cfg.default, none, none⟩ : Obj ℚ) sampleS none 3).1.map (List.map (List.map (fun x => -x))), o'') := by
  cases h : Obj.emd 3 linSciPy (⟨Cfg.default, none, none⟩ : Obj ℚ) sampleS none 3 with
  | mk r o' =>
    cases r with
    | ok rows =>
      obtain ⟨o'', h1, -⟩ := (C14_negation 3 linSciPy linSciPy_odd ⟨Cfg.default, none, none⟩ rfl sampleS none 3).1 rows o' h
      exact ⟨o'', h1⟩
    | error e =>
      exfalso
      have : okWith (fun _ => true) (Obj.emd 3 linSciPy (⟨Cfg.default, none, none⟩ : Obj ℚ) sampleS none 3).1 = true := by decide +kernel
      rw [h] at this
      cases this

end EMD
end PyEMD
