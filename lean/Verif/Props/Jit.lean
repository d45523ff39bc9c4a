import Verif.Lemmas.Jit
import Verif.Props.Extrema
import Verif.Props.NoRaise

/-!
# `JitEMD`: agreement with the reference (C56, C66) and the trend (C57)
-/

set_option linter.unusedSectionVars false

namespace PyEMD
namespace Jit
open EMD (Extrema Detection SplineKind Cfg Sift SiftEnd SiftStep Round)

section LawFree
variable {α : Type} [Add α] [Sub α] [Mul α] [Div α] [Neg α] [LT α] [LE α] [BEq α]
  [DecidableLT α] [DecidableLE α] [NpScalar α]

/-- **C56.**  On the timeline `0, 1, ...` the compiled simple detection returns exactly what the reference returns (or raises the same
exception), in every arithmetic in which no number is both above and below zero. -/
theorem C56_same_extrema (has : ∀ x : α, lit 0 < x → ¬ x < lit 0) (T S : List α) :
    findExtrema .simple T S = EMD.findExtrema .simple ((List.range S.length).map (fun k : Nat => (lit (k : ℚ) : α))) S :=
  findExtremaSimple_eq has S

theorem emdLoop_rows {sp : SciPy α} {cfg : Cfg α} {T S : List α} {mi : Int} {fuel : Nat} {IMF IMF' : List (List α)} {e e' : Int}
    (hI : ∀ r ∈ IMF, r.length = S.length) (h : emdLoop sp cfg T S mi fuel IMF e = .ok (IMF', e')) :
    ∀ r ∈ IMF', r.length = S.length := by
  induction fuel generalizing IMF e with
  | zero => cases h
  | succ fuel ih =>
    unfold emdLoop at h
    simp only [bind_eq_ok] at h
    obtain ⟨sw, -, IMF1, hv, fin, -, h⟩ := h
    have h1 : ∀ r ∈ IMF1, r.length = S.length := by
      unfold vstack at hv
      split at hv
      · next hl =>
        cases hv
        intro r hr
        rcases List.mem_append.1 hr with h' | h'
        · exact hI r h'
        · rw [List.mem_singleton] at h'
          rw [h']
          exact hl
      · cases hv
    split at h
    · rw [pure_eq_ok] at h
      cases h
      exact h1
    · exact ih h1 h

/-- What `emd` returns: rows as long as the signal, with or without the residue. -/
theorem emd_spec {fuel : Nat} {sp : SciPy α} {cfg : Cfg α} {S T : List α} {mi : Int} {R : List (List α)}
    (h : emd fuel sp cfg S T mi = .ok R) :
    ∃ imfs : List (List α), (∀ r ∈ imfs, r.length = S.length) ∧
      ((allclose0 (vsub S (sumRows S.length imfs)) = true ∧ R = imfs) ∨
        (allclose0 (vsub S (sumRows S.length imfs)) = false ∧ R = imfs ++ [vsub S (sumRows S.length imfs)])) := by
  unfold emd at h
  split at h
  · cases h
  · simp only [bind_eq_ok] at h
    obtain ⟨⟨IMF, e⟩, hl, h⟩ := h
    have hrows := emdLoop_rows (by simp) hl
    refine ⟨if e ≤ 2 then IMF.dropLast else IMF, ?_, ?_⟩
    · intro r hr
      split at hr
      · exact hrows r (List.mem_of_mem_dropLast hr)
      · exact hrows r hr
    · simp only [] at h
      generalize (if e ≤ 2 then IMF.dropLast else IMF) = imfs at h ⊢
      by_cases hc : (!allclose0 (vsub S (sumRows S.length imfs))) = true
      · rw [if_pos hc] at h
        right
        unfold vstack at h
        split at h
        · cases h
          exact ⟨by simpa using hc, rfl⟩
        · cases h
      · rw [if_neg hc, pure_eq_ok] at h
        left
        exact ⟨by simpa using hc, h.symm⟩

end LawFree

section Exact
variable {K : Type} [Field K] [LinearOrder K] [IsStrictOrderedRing K] [FloorRing K]

theorem exact_asymm (x : K) (h : lit 0 < x) : ¬ x < lit 0 := not_lt.2 h.le

/-- **C56.**  On any time array the compiled simple detection finds the samples and zero crossings that the reference finds, and the
reference's positions are the time stamps at the compiled code's positions. -/
theorem C56_same_samples (T S : List K) (hT : T.length = S.length) :
    ∃ e e' : Extrema K, ∃ imax imin : List Nat,
      EMD.findExtrema .simple T S = .ok e ∧ findExtrema .simple T S = .ok e' ∧
      e'.maxVal = e.maxVal ∧ e'.minVal = e.minVal ∧ e'.indzer = e.indzer ∧
      e'.maxPos = imax.map (fun k : Nat => (k : K)) ∧ e'.minPos = imin.map (fun k : Nat => (k : K)) ∧
      e.maxPos = imax.map (fun k => T.getD k 0) ∧ e.minPos = imin.map (fun k => T.getD k 0) := by
  have h1 := EMD.findExtremaSimple_eq T S hT
  have h2 := EMD.findExtremaSimple_eq ((List.range S.length).map (fun k : Nat => (lit (k : ℚ) : K))) S (by simp)
  rw [← findExtremaSimple_eq exact_asymm] at h2
  have hpos : ∀ X : List Nat, (∀ i ∈ X, i + 1 < S.length) →
      X.map (EMD.sAt ((List.range S.length).map (fun k : Nat => (lit (k : ℚ) : K)))) = X.map (fun k : Nat => (k : K)) := by
    intro X hX
    apply List.map_congr_left
    intro i hi
    have := hX i hi
    simp [EMD.sAt, show i < S.length by omega, lit_eq]
  refine ⟨_, _, EMD.reported EMD.isPos EMD.isNeg S, EMD.reported EMD.isNeg EMD.isPos S, h1, h2, rfl, rfl, rfl, ?_, ?_, rfl, rfl⟩
  · exact hpos _ (fun i hi => EMD.reported_lt EMD.isPos_zero EMD.isNeg_zero hi)
  · exact hpos _ (fun i hi => EMD.reported_lt EMD.isNeg_zero EMD.isPos_zero hi)

/-! ## The pieces of one sifting step -/

theorem dropDup_cons (p : K × K) (l : List (K × K)) (h : (p :: l).Pairwise (fun p q => p.1 < q.1 ∨ p = q)) :
    EMD.dropDupKnots (p :: l) = p :: keepAfter p l := by
  induction l generalizing p with
  | nil => rfl
  | cons q l ih =>
    rw [List.pairwise_cons] at h
    unfold EMD.dropDupKnots keepAfter
    rw [ih q h.2]
    split
    · next he =>
      rcases h.1 q (by simp) with hlt | rfl
      · simp only [beq_iff_eq] at he
        exact absurd he hlt.ne'
      · rfl
    · rfl

theorem dropDup_eq (l : List (K × K)) (h : l.Pairwise (fun p q => p.1 < q.1 ∨ p = q)) : dropDup l = EMD.dropDupKnots l := by
  cases l with
  | nil => rfl
  | cons p l => exact (dropDup_cons p l h).symm

theorem preparePointsSimple_raw (nbsym : Int) (T S : List K) (maxPos minPos : List K) :
    preparePointsSimple nbsym T S maxPos minPos =
      EMD.rawPoints nbsym T S maxPos minPos >>= fun k => .ok (dropDup k.1, dropDup k.2) := by
  unfold preparePointsSimple EMD.rawPoints
  simp only [bind_assoc, List.append_assoc]
  rfl

/-- What both implementations must share on signals of length `n`. -/
structure Agree (cfg : Cfg K) (T : List K) (n : Nat) : Prop where
  find : ∀ x : List K, x.length = n → findExtrema cfg.detection T x = EMD.findExtrema cfg.detection T x
  prep : ∀ (x : List K) (e : Extrema K), x.length = n → EMD.findExtrema cfg.detection T x = .ok e →
    3 ≤ e.maxPos.length + e.minPos.length →
    preparePoints cfg.detection cfg.nbsym T x e = EMD.preparePoints cfg.detection cfg.nbsym T x e
  nonconst : ∀ (x : List K) (e : Extrema K), x.length = n → EMD.findExtrema cfg.detection T x = .ok e →
    3 ≤ e.maxPos.length + e.minPos.length → ∃ a ∈ x, ∃ b ∈ x, a ≠ b

theorem dAt_const {x : List K} (h : ∀ a ∈ x, ∀ b ∈ x, a = b) (i : Nat) : EMD.dAt x i = 0 := by
  by_cases hi : i + 1 < x.length
  · rw [EMD.dAt_eq hi, sub_eq_zero]
    simp only [EMD.sAt]
    rw [getD_lt _ _ _ hi, getD_lt _ _ _ (by omega)]
    exact h _ (List.getElem_mem _) _ (List.getElem_mem _)
  · unfold EMD.dAt
    rw [List.getD_eq_getElem?_getD, List.getElem?_eq_none (by rw [npDiff_length]; omega)]
    rfl

theorem reported_const {P Q : K → Bool} (hP : P 0 = false) (hQ : Q 0 = false) {x : List K} (h : ∀ a ∈ x, ∀ b ∈ x, a = b) :
    EMD.reported P Q x = [] := by
  rw [List.eq_nil_iff_forall_not_mem]
  intro m hm
  rw [EMD.mem_reported hP hQ] at hm
  rcases hm with ⟨l, r, hp, -⟩ | ⟨r, hp, -⟩
  · have := hp.before
    rw [dAt_const h, hP] at this
    cases this
  · have := hp.after
    rw [dAt_const h, hQ] at this
    cases this

theorem agree_simple (cfg : Cfg K) (hd : cfg.detection = .simple) (hnb : 1 ≤ cfg.nbsym) (n : Nat) :
    Agree cfg (EMD.timeArr n) n where
  find := by
    rintro x rfl
    rw [hd]
    have := C56_same_extrema exact_asymm (EMD.timeArr x.length) x
    rw [this]
    congr 1
    unfold EMD.timeArr
    apply List.map_congr_left
    intro k _
    rw [lit_eq]
    simp
  prep := by
    rintro x e rfl he h3
    rw [hd] at he ⊢
    have he' := EMD.findExtremaSimple_eq (EMD.timeArr x.length : List K) x (EMD.timeArr_length _)
    rw [show EMD.findExtrema .simple (EMD.timeArr x.length : List K) x = _ from he'] at he
    injection he with he
    subst he
    simp only [List.length_map] at h3
    have rA : ∀ i ∈ EMD.reported EMD.isPos EMD.isNeg x, i + 1 < x.length :=
      fun i hi => EMD.reported_lt EMD.isPos_zero EMD.isNeg_zero hi
    have rB : ∀ i ∈ EMD.reported EMD.isNeg EMD.isPos x, i + 1 < x.length :=
      fun i hi => EMD.reported_lt EMD.isNeg_zero EMD.isPos_zero hi
    have sA := (EMD.reported_spec EMD.isPos EMD.isNeg EMD.isPos_zero EMD.isNeg_zero x).1
    have sB := (EMD.reported_spec EMD.isNeg EMD.isPos EMD.isNeg_zero EMD.isPos_zero x).1
    have posT : ∀ X : List Nat, (∀ i ∈ X, i + 1 < x.length) →
        X.map (EMD.sAt (EMD.timeArr x.length : List K)) = X.map (fun k : Nat => (k : K)) := by
      intro X hX
      apply List.map_congr_left
      intro i hi
      have := hX i hi
      have h := EMD.timeArr_getD (K := K) x.length (i : Int) (by omega) (by omega)
      simpa [EMD.sAt] using h
    obtain ⟨lx, rx, ln, rn, sl, sr, e1, o1, o2, o3, o4, -⟩ := EMD.rawPoints_ok cfg.nbsym hnb x _ _ sA sB rA rB
      (fun i hi => EMD.maxima_minima_disjoint hi)
      (fun a ha a' ha' => EMD.maxima_alternate ha ha') (fun a ha a' ha' => EMD.minima_alternate ha ha') h3
    unfold preparePoints EMD.preparePoints
    simp only [posT _ rA, posT _ rB]
    rw [preparePointsSimple_raw, EMD.preparePointsSimple_raw, e1]
    have lists : ∀ X : List Nat, X.Pairwise (· < ·) → (∀ i ∈ X, i + 1 < x.length) → EMD.Lists x.length (X.map (fun k : Nat => (k : Int))) := by
      intro X sX rX
      constructor
      · rw [List.pairwise_map]; exact sX.imp (fun h => by omega)
      · simp only [List.mem_map]
        rintro _ ⟨k, hk, rfl⟩
        have := rX k hk
        omega
    have l1 := EMD.length_le_of_between sA (fun a ha a' ha' => EMD.maxima_alternate ha ha')
    have l2 := EMD.length_le_of_between sB (fun a ha a' ha' => EMD.minima_alternate ha ha')
    have ne : ∀ X : List Nat, 1 ≤ X.length → X.map (fun k : Nat => (k : Int)) ≠ [] := by
      intro X hX hc
      rw [List.map_eq_nil_iff] at hc
      subst hc
      simp at hX
    simp only [bind, Except.bind]
    rw [dropDup_eq _ (EMD.rawKnots_sorted (lists _ sA rA) (ne _ (by omega)) o1 o3),
      dropDup_eq _ (EMD.rawKnots_sorted (lists _ sB rB) (ne _ (by omega)) o2 o4)]
  nonconst := by
    rintro x e rfl he h3
    by_contra hc
    have hconst : ∀ a ∈ x, ∀ b ∈ x, a = b := by
      intro a ha b hb
      by_contra hab
      exact hc ⟨a, ha, b, hb, hab⟩
    rw [hd] at he
    have he' := EMD.findExtremaSimple_eq (EMD.timeArr x.length : List K) x (EMD.timeArr_length _)
    rw [show EMD.findExtrema .simple (EMD.timeArr x.length : List K) x = _ from he'] at he
    injection he with he
    subst he
    rw [reported_const EMD.isPos_zero EMD.isNeg_zero hconst, reported_const EMD.isNeg_zero EMD.isPos_zero hconst] at h3
    simp at h3

theorem maskSel_false {β : Type} (l : List β) (m : List Bool) (h : ∀ b ∈ m, b = false) : maskSel l m = [] := by
  induction l generalizing m with
  | nil => cases m <;> rfl
  | cons x l ih => cases m with
    | nil => rfl
    | cons b m =>
      have hb := h b (by simp)
      subst hb
      simp only [maskSel, Bool.false_eq_true, if_false]
      exact ih m (fun b hb => h b (by simp [hb]))

theorem mem_zipWith' {β γ δ : Type} {f : β → γ → δ} {l : List β} {m : List γ} {c : δ} (h : c ∈ List.zipWith f l m) :
    ∃ u ∈ l, ∃ v ∈ m, c = f u v := by
  induction l generalizing m with
  | nil => simp at h
  | cons a l ih => cases m with
    | nil => simp at h
    | cons b m =>
      rw [List.zipWith_cons_cons, List.mem_cons] at h
      rcases h with rfl | h
      · exact ⟨a, by simp, b, by simp, rfl⟩
      · obtain ⟨u, hu, v, hv, e⟩ := ih h
        exact ⟨u, by simp [hu], v, by simp [hv], e⟩

theorem notDuplicate_const {x : List K} (h : ∀ a ∈ x, ∀ b ∈ x, a = b) : EMD.notDuplicate x = [0, x.length - 1] := by
  unfold EMD.notDuplicate
  simp only []
  rw [maskSel_false]
  · rfl
  · intro b hb
    rw [List.mem_map] at hb
    obtain ⟨c, hc, rfl⟩ := hb
    have key : ∀ l m : List K, (∀ a ∈ l, a ∈ x) → (∀ a ∈ m, a ∈ x) → ∀ c ∈ List.zipWith (fun u v => u == v) l m, c = true := by
      intro l m hl hm c hc
      obtain ⟨u, hu, v, hv, rfl⟩ := mem_zipWith' hc
      rw [beq_iff_eq]
      exact h u (hl u hu) v (hm v hv)
    obtain ⟨u, hu, v, hv, rfl⟩ := mem_zipWith' hc
    have h1 := key _ _ (fun a ha => List.mem_of_mem_tail (List.mem_of_mem_dropLast ha))
      (fun a ha => List.mem_of_mem_dropLast (List.mem_of_mem_dropLast ha)) u hu
    have h2 := key _ _ (fun a ha => List.mem_of_mem_tail (List.mem_of_mem_dropLast ha))
      (fun a ha => List.mem_of_mem_tail (List.mem_of_mem_tail ha)) v hv
    rw [h1, h2]
    rfl

theorem agree_parabol (cfg : Cfg K) (hd : cfg.detection = .parabol) (T : List K) (n : Nat) : Agree cfg T n where
  find := by
    intro x _
    rw [hd]
    rfl
  prep := by
    intro x e _ _ _
    rw [hd]
    rfl
  nonconst := by
    intro x e _ he h3
    by_contra hc
    have hconst : ∀ a ∈ x, ∀ b ∈ x, a = b := by
      intro a ha b hb
      by_contra hab
      exact hc ⟨a, ha, b, hb, hab⟩
    rw [hd] at he
    simp only [EMD.findExtrema, EMD.findExtremaParabol, bind_eq_ok, pure_eq_ok, notDuplicate_const hconst] at he
    obtain ⟨_, -, _, -, T', hT', S', -, rfl⟩ := he
    have hl := pyTake_length hT'
    have hv : EMD.parabolVertices T' S' = [] := by
      match T', hl with
      | [a, b], _ => rfl
    rw [hv] at h3
    simp at h3

/-! ## One step and the loops -/

/-- The spline kinds that `JitEMD` knows. -/
def CommonKind (k : SplineKind) : Prop := k = .akima ∨ k = .cubic ∨ k = .slinear ∨ k = .quadratic ∨ k = .linear

/-- Both implementations call interpolators that compute the same values. -/
def SameScipy (sp sp' : SciPy K) : Prop :=
  sp'.akima = sp.akima ∧ sp'.cubic = sp.cubic ∧ sp'.slinear = sp.slinear ∧ sp'.quadratic = sp.quadratic ∧ sp'.linear = sp.linear

theorem splinePoints_eq {sp sp' : SciPy K} (hsp : SameScipy sp sp') {kind : SplineKind} (hk : CommonKind kind) (T : List K)
    (k : List (K × K)) : splinePoints sp' kind T k = EMD.splinePoints sp kind T k := by
  obtain ⟨h1, h2, h3, h4, h5⟩ := hsp
  unfold splinePoints EMD.splinePoints
  rcases hk with rfl | rfl | rfl | rfl | rfl <;> simp only [h1, h2, h3, h4, h5]

theorem countExt_eq {cfg : Cfg K} {T : List K} {n : Nat} (ha : Agree cfg T n) (x : List K) (hx : x.length = n) :
    countExt cfg T x = EMD.countExt cfg T x := by
  unfold countExt EMD.countExt
  rw [ha.find x hx]

theorem bcast_sub_eq (x m : List K) (hx : 2 ≤ x.length) :
    bcast (fun a b => a - b) x m = (assignAll x.length m >>= fun mean => .ok (vsub x mean)) := by
  unfold bcast assignAll
  by_cases h : x.length = m.length
  · rw [if_pos h, if_pos h.symm]
    rfl
  · rw [if_neg h, if_neg (Ne.symm h)]
    match x, m, hx with
    | a :: b :: x, [], _ => rfl
    | a :: b :: x, [y], _ =>
      simp only [bind, Except.bind, vsub]
      congr 1
      have : ∀ l : List K, l.map (fun a => a - y) = List.zipWith (fun a b => a - b) l (List.replicate l.length y) := by
        intro l
        induction l with
        | nil => rfl
        | cons c l ih => rw [List.map_cons, ih, List.length_cons, List.replicate_succ, List.zipWith_cons_cons]
      exact this _
    | a :: b :: x, y :: z :: m, _ => rfl

theorem siftOnce_eq {cfg : Cfg K} {T : List K} {n : Nat} (ha : Agree cfg T n) {sp sp' : SciPy K} (hsp : SameScipy sp sp')
    (hk : CommonKind cfg.splineKind) (x : List K) (hn : 2 ≤ n) (hx : x.length = n) :
    siftOnce sp' cfg T x = EMD.siftOnce sp cfg T x := by
  unfold siftOnce EMD.siftOnce extractMaxMinExtrema EMD.extractMaxMinSpline
  rw [ha.find x hx]
  cases he : EMD.findExtrema cfg.detection T x with
  | error e => simp only [bind, Except.bind]
  | ok e =>
    simp only [bind, Except.bind, pure, Except.pure]
    by_cases h3 : e.maxPos.length + e.minPos.length < 3
    · simp only [if_pos h3]
    · simp only [if_neg h3]
      rw [ha.prep x e hx he (by omega)]
      cases EMD.preparePoints cfg.detection cfg.nbsym T x e with
      | error e => simp only [bind, Except.bind]
      | ok kk =>
        obtain ⟨eMax, eMin⟩ := kk
        simp only [splinePoints_eq hsp hk]
        cases EMD.splinePoints sp cfg.splineKind T eMax with
        | error e => simp only [bind, Except.bind]
        | ok u =>
          simp only []
          cases EMD.splinePoints sp cfg.splineKind T eMin with
          | error e => simp only [bind, Except.bind]
          | ok v =>
            simp only []
            cases bcast (fun a b => a + b) u.2 v.2 with
            | error e => simp only [bind, Except.bind]
            | ok w =>
              simp only [bcast_sub_eq _ _ (hx.symm ▸ hn), bind, Except.bind]
              cases assignAll x.length (w.map (fun y => lit (1 / 2) * y)) <;> rfl

theorem scalarDiv_eq (a b : K) (hb : b ≠ 0) : scalarDiv a b = .ok (a / b) := by
  unfold scalarDiv
  rw [if_neg (by rw [beq_iff_eq, lit_zero]; exact hb)]

theorem divLt_eq (a b t : K) (hb : b ≠ 0) : divLt a b t = decide (a / b < t) := by
  unfold divLt
  have : (b == lit 0) = false := by rw [beq_eq_false_iff_ne, lit_zero]; exact hb
  rw [this]
  rfl

theorem checkImf_eq (cfg : Cfg K) (a b : List K) (p q : List (K × K)) (hb : ∃ u ∈ b, ∃ v ∈ b, u ≠ v) :
    checkImf cfg a b p q = EMD.checkImf cfg a b p q := by
  obtain ⟨u, hu, v, hv, huv⟩ := hb
  have hne : b ≠ [] := List.ne_nil_of_mem hu
  have hr : npMax b - npMin b ≠ 0 := by
    intro h
    have h := sub_eq_zero.1 h
    obtain ⟨-, h1⟩ := npMax_spec hne
    obtain ⟨-, h2⟩ := npMin_spec hne
    apply huv
    have e1 : u = npMin b := le_antisymm (h ▸ h1 u hu) (h2 u hu)
    have e2 : v = npMin b := le_antisymm (h ▸ h1 v hv) (h2 v hv)
    rw [e1, e2]
  have hs : npSum (b.map (fun x => x * x)) ≠ 0 := by
    rw [npSum_eq]
    intro h
    have hz : ∀ x ∈ b, x = 0 := by
      intro x hx
      have := List.all_zero_of_le_zero_le_of_sum_eq_zero (l := b.map (fun x => x * x)) (by
        intro y hy
        rw [List.mem_map] at hy
        obtain ⟨z, -, rfl⟩ := hy
        exact mul_self_nonneg z) h (List.mem_map_of_mem hx)
      exact mul_self_eq_zero.1 this
    exact huv ((hz u hu).trans (hz v hv).symm)
  have hcond : ((p.filter (fun p => decide (p.2 < lit 0))).length + (q.filter (fun p => decide (lit 0 < p.2))).length > 0) ↔
      (p.any (fun p => decide (p.2 < lit 0)) || q.any (fun p => decide (lit 0 < p.2))) = true := by
    rw [Bool.or_eq_true, List.any_eq_true, List.any_eq_true, gt_iff_lt, Nat.add_pos_iff_pos_or_pos, List.length_filter_pos_iff,
      List.length_filter_pos_iff]
  unfold checkImf EMD.checkImf
  simp only [pyMax_eq hne, pyMin_eq hne, bind, Except.bind, scalarDiv_eq _ _ hr, scalarDiv_eq _ _ hs, divLt_eq _ _ _ hr,
    divLt_eq _ _ _ hs, hcond, decide_eq_true_eq]

theorem siftBody_eq {cfg : Cfg K} {T : List K} {n : Nat} (ha : Agree cfg T n) {sp sp' : SciPy K} (hsp : SameScipy sp sp')
    (hk : CommonKind cfg.splineKind) (hn : 2 ≤ n) (s : Sift K) (hs : s.imf.length = n) :
    siftBody sp' cfg T s = EMD.siftBody sp cfg T s := by
  unfold siftBody EMD.siftBody
  simp only []
  split
  · rfl
  · rw [countExt_eq ha s.imf hs, siftOnce_eq ha hsp hk s.imf hn hs]
    cases hc : EMD.countExt cfg T s.imf with
    | error e => simp only [bind, Except.bind]
    | ok ez =>
      obtain ⟨e, z⟩ := ez
      simp only [bind, Except.bind]
      split
      · next he =>
        cases ho : EMD.siftOnce sp cfg T s.imf with
        | error e => rfl
        | ok r =>
          obtain ⟨imf, eMax, eMin⟩ := r
          have hl : imf.length = n := (EMD.siftOnce_length ho).trans hs
          obtain ⟨r, hr, rfl, rfl⟩ := EMD.countExt_spec hc
          simp only [countExt_eq ha imf hl, checkImf_eq cfg imf s.imf eMax eMin (ha.nonconst s.imf r hs hr (by omega))]
      · rfl

theorem siftLoop_eq {cfg : Cfg K} {T : List K} {n : Nat} (ha : Agree cfg T n) {sp sp' : SciPy K} (hsp : SameScipy sp sp')
    (hk : CommonKind cfg.splineKind) (hn : 2 ≤ n) (fuel : Nat) (s : Sift K) (x0 : List K) (seq : List (List K)) (hx : x0.length = n)
    (hi : EMD.SiftInv sp cfg T x0 s seq) : siftLoop sp' cfg T fuel s = EMD.siftLoop sp cfg T fuel s := by
  induction fuel generalizing s seq with
  | zero => rfl
  | succ fuel ih =>
    have hl := hi.path.length
    unfold siftLoop EMD.siftLoop
    rw [siftBody_eq ha hsp hk hn s (by omega)]
    cases hb : EMD.siftBody sp cfg T s with
    | error e => rfl
    | ok r =>
      cases r with
      | brk s' why => rfl
      | cont s' =>
        obtain ⟨-, -, seq', hi'⟩ := EMD.siftBody_cont hi hb
        simp only [bind, Except.bind]
        exact ih s' seq' hi'

theorem emdRound_eq {cfg : Cfg K} {T S : List K} (ha : Agree cfg T S.length) {sp sp' : SciPy K} (hsp : SameScipy sp sp')
    (hk : CommonKind cfg.splineKind) (hn : 2 ≤ S.length) (IMF : List (List K)) (hI : ∀ r ∈ IMF, r.length = S.length) (e : Int) :
    emdRound sp' cfg T S IMF e = EMD.emdRound sp cfg T S IMF e := by
  unfold emdRound EMD.emdRound
  exact siftLoop_eq ha hsp hk hn _ _ _ _ (EMD.isResidue_vsub S IMF hI).1 (EMD.siftInv_start _ _ _ _ _)

theorem emdLoop_eq {cfg : Cfg K} {T S : List K} (ha : Agree cfg T S.length) {sp sp' : SciPy K} (hsp : SameScipy sp sp')
    (hk : CommonKind cfg.splineKind) (hn : 2 ≤ S.length) (mi : Int) (fuel : Nat) (rounds : List (Round K))
    (hR : ∀ r ∈ rounds, r.imf.length = S.length) (e : Int) :
    emdLoop sp' cfg T S mi fuel (rounds.map (·.imf)) e =
      (EMD.emdLoop sp cfg T S mi fuel rounds e >>= fun r => .ok (r.1.map (·.imf), r.2)) := by
  induction fuel generalizing rounds e with
  | zero => rfl
  | succ fuel ih =>
    have hI : ∀ r ∈ rounds.map (·.imf), r.length = S.length := by
      simp only [List.mem_map]
      rintro _ ⟨r, hr, rfl⟩
      exact hR r hr
    unfold emdLoop EMD.emdLoop
    rw [emdRound_eq ha hsp hk hn _ hI e]
    cases hr : EMD.emdRound sp cfg T S (rounds.map (·.imf)) e with
    | error e => rfl
    | ok sw =>
      obtain ⟨s, why⟩ := sw
      obtain ⟨seq, hpost⟩ := EMD.emdRound_post hr
      have hls : s.imf.length = S.length := by
        rw [hpost.path.length]; exact (EMD.isResidue_vsub S _ hI).1
      have hR' : ∀ r ∈ rounds ++ [{ imf := s.imf, why := why, subs := s.subs, nh := s.nh }], r.imf.length = S.length := by
        intro r hr'
        rcases List.mem_append.1 hr' with h' | h'
        · exact hR r h'
        · simp at h'; subst h'; exact hls
      have hv : vstack S.length (rounds.map (·.imf)) s.imf =
          .ok ((rounds ++ [({ imf := s.imf, why := why, subs := s.subs, nh := s.nh } : Round K)]).map (fun x : Round K => x.imf)) := by
        unfold vstack
        rw [if_pos hls]
        simp
      simp only [bind, Except.bind, hv]
      rw [show endCondition cfg S = EMD.endCondition cfg S from rfl]
      cases EMD.endCondition cfg S ((rounds ++ [({ imf := s.imf, why := why, subs := s.subs, nh := s.nh } : Round K)]).map (fun x : Round K => x.imf)) with
      | error e => rfl
      | ok fin =>
        simp only [List.length_map]
        split
        · rfl
        · have := ih _ hR' s.extNo
          simp only [bind, Except.bind] at this
          exact this

theorem emd_eq (fuel : Nat) {cfg : Cfg K} {T S : List K} (ha : Agree cfg T S.length) {sp sp' : SciPy K} (hsp : SameScipy sp sp')
    (hk : CommonKind cfg.splineKind) (hn : 2 ≤ S.length) (hT : T.length = S.length)
    (hp : EMD.prepareTime cfg S (some T) = .ok T) (mi : Int) :
    emd fuel sp' cfg S T mi = (EMD.emdPure fuel sp cfg S (some T) mi >>= fun R => .ok R.rows) := by
  unfold emd EMD.emdPure EMD.emdRounds
  rw [if_neg (by simp [hT]), hp]
  have := emdLoop_eq ha hsp hk hn mi fuel [] (by simp) (-1)
  simp only [List.map_nil] at this
  rw [this]
  simp only [bind, Except.bind]
  cases hl : EMD.emdLoop sp cfg T S mi fuel [] (-1) with
  | error e => rfl
  | ok r =>
    obtain ⟨rounds, e⟩ := r
    simp only [EMD.finish, pure, Except.pure]
    have hrows : ∀ r ∈ (if e ≤ 2 then (rounds.map (·.imf)).dropLast else rounds.map (·.imf)), r.length = S.length := by
      have hrows := emdLoop_rows (by simp) (this.trans (by rw [hl]; rfl))
      intro r hr
      split at hr
      · exact hrows r (List.mem_of_mem_dropLast hr)
      · exact hrows r hr
    have hv : (vsub S (sumRows S.length (if e ≤ 2 then (rounds.map (·.imf)).dropLast else rounds.map (·.imf)))).length = S.length :=
      (EMD.isResidue_vsub S _ hrows).1
    unfold vstack
    rw [if_pos hv]
    cases allclose0 (vsub S (sumRows S.length (if e ≤ 2 then (rounds.map (·.imf)).dropLast else rounds.map (·.imf)))) <;> rfl

/-- A time array that the reference's normalisation leaves alone: it starts at 0 and its smallest step is 1. -/
def NormalTime (T : List K) : Prop :=
  2 ≤ T.length ∧ T[0]? = some 0 ∧ (∀ i a b, T[i]? = some a → T[i + 1]? = some b → 1 ≤ b - a) ∧
    ∃ i a b, T[i]? = some a ∧ T[i + 1]? = some b ∧ b - a = 1

/-- **C66.**  Simple detection: on the timeline `0, 1, ...`, `JitEMD` returns exactly the rows that `EMD` returns (or the same exception),
for every signal with two or more samples, every configuration with `nbsym ≥ 1` and every spline kind both know. -/
theorem C66_simple (fuel : Nat) (sp sp' : SciPy K) (hsp : SameScipy sp sp') (cfg : Cfg K) (hd : cfg.detection = .simple)
    (hnb : 1 ≤ cfg.nbsym) (hk : CommonKind cfg.splineKind) (S : List K) (hn : 2 ≤ S.length) (mi : Int) :
    emd fuel sp' cfg S ((List.range S.length).map (fun k : Nat => (k : K))) mi =
      (EMD.emdPure fuel sp cfg S (some ((List.range S.length).map (fun k : Nat => (k : K)))) mi >>= fun R => .ok R.rows) :=
  emd_eq fuel (agree_simple cfg hd hnb S.length) hsp hk hn (by simp [EMD.timeArr])
    (EMD.prepareTime_simple cfg hd S hn _ (by rintro T' ⟨⟩; simp [EMD.timeArr])) mi

theorem normalTime_prepare {T S : List K} (h : NormalTime T) (hT : T.length = S.length) (cfg : Cfg K) (hd : cfg.detection = .parabol) :
    EMD.prepareTime cfg S (some T) = .ok T := by
  obtain ⟨h2, h0, h1, i, a, b, ha, hb, hab⟩ := h
  have hdiff : ∀ x ∈ npDiff T, 1 ≤ x := by
    intro x hx
    obtain ⟨j, hj, rfl⟩ := List.getElem_of_mem hx
    have hj' := hj
    rw [npDiff_length] at hj'
    rw [npDiff_getElem]
    exact h1 j _ _ (List.getElem?_eq_getElem (by omega)) (List.getElem?_eq_getElem (by omega))
  have hmem : (1 : K) ∈ npDiff T := by
    have hi : i + 1 < T.length := (List.getElem?_eq_some_iff.1 hb).1
    have : (npDiff T)[i]'(by rw [npDiff_length]; omega) = 1 := by
      rw [npDiff_getElem, ← hab]
      rw [List.getElem?_eq_getElem hi] at hb
      rw [List.getElem?_eq_getElem (by omega)] at ha
      rw [Option.some.inj ha, Option.some.inj hb]
    rw [← this]
    exact List.getElem_mem _
  have hmin : npMin (npDiff T) = 1 := by
    obtain ⟨m1, m2⟩ := npMin_spec (List.ne_nil_of_mem hmem)
    exact le_antisymm (m2 1 hmem) (hdiff _ m1)
  have hz : T[0] = 0 := by
    rw [List.getElem?_eq_getElem (by omega)] at h0
    exact Option.some.inj h0
  unfold EMD.prepareTime
  rw [hd]
  simp only [hT, ne_eq, not_true_eq_false, if_false, reduceCtorEq]
  rw [EMD.normalizeTime_ok T h2 (fun x hx => by have := hdiff x hx; linarith), hmin, hz]
  simp

/-- **C66.**  Parabolic detection: on a time array that starts at 0 with smallest step 1 (which `EMD` would produce itself by
normalisation), `JitEMD` returns exactly the rows that `EMD` returns, or the same exception. -/
theorem C66_parabol (fuel : Nat) (sp sp' : SciPy K) (hsp : SameScipy sp sp') (cfg : Cfg K) (hd : cfg.detection = .parabol)
    (hk : CommonKind cfg.splineKind) (S T : List K) (hT : T.length = S.length) (hN : NormalTime T) (mi : Int) :
    emd fuel sp' cfg S T mi = (EMD.emdPure fuel sp cfg S (some T) mi >>= fun R => .ok R.rows) :=
  emd_eq fuel (agree_parabol cfg hd T S.length) hsp hk (hT ▸ hN.1) hT (normalTime_prepare hN hT cfg hd) mi

/-! ## Examples for C56 and C66 -/

/-- A signal with plateaus, ties and touches of zero meets the hypothesis of C56; both detectors return the same five lists. -/
example : Jit.findExtremaSimple [0, 2, 2, -1, 0, 3, 3, (1 : ℚ)] =
      EMD.findExtremaSimple ((List.range 8).map (fun k : Nat => (k : ℚ))) [0, 2, 2, -1, 0, 3, 3, (1 : ℚ)] ∧
    okWith (fun e => e.maxPos == [(6 : ℚ)] && e.minPos == [(3 : ℚ)]) (Jit.findExtremaSimple [0, 2, 2, -1, 0, 3, 3, (1 : ℚ)]) = true :=
  ⟨by simpa [lit_nat, findExtrema, EMD.findExtrema] using C56_same_extrema exact_asymm [] [0, 2, 2, -1, 0, 3, 3, (1 : ℚ)], by decide +kernel⟩

/-- C66 on a real decomposition with several components. -/
example : Jit.emd 20 linSciPy EMD.sampleCfg EMD.sampleS ((List.range 10).map (fun k : Nat => (k : ℚ))) (-1) =
      (EMD.emdPure 20 linSciPy EMD.sampleCfg EMD.sampleS (some ((List.range 10).map (fun k : Nat => (k : ℚ)))) (-1) >>= fun R => .ok R.rows) ∧
    okWith (fun R => R.length == 3)
      (Jit.emd 20 linSciPy EMD.sampleCfg EMD.sampleS ((List.range 10).map (fun k : Nat => (k : ℚ))) (-1)) = true :=
  ⟨C66_simple 20 linSciPy linSciPy ⟨rfl, rfl, rfl, rfl, rfl⟩ EMD.sampleCfg rfl (by decide) (.inr (.inl rfl)) EMD.sampleS (by decide) (-1),
    by decide +kernel⟩

/-- An uneven time array in normal form. -/
def sampleT : List ℚ := [0, 1, 3, 4, 5, 13 / 2, 8, 9, 10, 12]

theorem sampleT_normal : NormalTime sampleT := by
  refine ⟨by decide, rfl, ?_, 0, 0, 1, rfl, rfl, by norm_num⟩
  intro i a b ha hb
  have hi : i + 1 < 10 := (List.getElem?_eq_some_iff.1 hb).1
  have hi' : i < 9 := by omega
  clear hi
  rcases i with _ | _ | _ | _ | _ | _ | _ | _ | _ | i <;> [skip; skip; skip; skip; skip; skip; skip; skip; skip; omega] <;> simp [sampleT] at ha hb <;> subst ha hb <;> norm_num

/-- C66 with parabolic detection on an uneven time array. -/
example : Jit.emd 20 linSciPy { EMD.sampleCfg with detection := .parabol } EMD.sampleS sampleT (-1) =
      (EMD.emdPure 20 linSciPy { EMD.sampleCfg with detection := .parabol } EMD.sampleS (some sampleT) (-1) >>= fun R => .ok R.rows) ∧
    okWith (fun R => decide (2 ≤ R.length))
      (Jit.emd 20 linSciPy { EMD.sampleCfg with detection := .parabol } EMD.sampleS sampleT (-1)) = true :=
  ⟨C66_parabol 20 linSciPy linSciPy ⟨rfl, rfl, rfl, rfl, rfl⟩ _ rfl (.inr (.inl rfl)) EMD.sampleS sampleT rfl sampleT_normal (-1),
    by decide +kernel⟩

/-! ## C57 -/

theorem slice_last {β : Type} (l : List β) (x : β) : pySlice (l ++ [x]) 0 (-1) = l ∧ pySliceFrom (l ++ [x]) (-1) = [x] := by
  have h1 : sliceBound (l ++ [x]).length (-1) = l.length := by simp [sliceBound]
  have h0 : sliceBound (l ++ [x]).length 0 = 0 := by simp [sliceBound]
  constructor
  · unfold pySlice; rw [h1, h0]; simp
  · unfold pySliceFrom; rw [h1]; simp

theorem nil_or_concat {β : Type} (l : List β) : l = [] ∨ ∃ a x, l = a ++ [x] := by
  rcases List.eq_nil_or_concat l with h | ⟨a, x, h⟩
  · exact .inl h
  · exact .inr ⟨a, x, by simpa using h⟩

open EMD.Spec in
/-- **C57**, what holds of it: if some sample of the signal exceeds `2e-8` in magnitude then, after `emd` returned `R`,
`get_imfs_and_trend()` succeeds; components and trend are all rows of `R`, or all but a last row that vanishes (up to `1e-8`); and their
sum differs from the signal by at most `2e-8` at every sample.  Missing: signals that are zero up to that tolerance, for which the call
may raise `IndexError`; see `C57_counterexample`. -/
theorem C57_partial (fuel : Nat) (sp : SciPy K) (o o' : Obj K) (S T : List K) (mi : Int) (R : List (List K))
    (h : o.emd fuel sp S T mi = (.ok R, o')) (hbig : ∃ x ∈ S, (1 / 50000000 : K) < |x|) :
    ∃ imfs trend, o'.getImfsAndTrend = .ok (imfs, [trend]) ∧
      (R = imfs ++ [trend] ∨ ∃ r, R = imfs ++ [trend] ++ [r] ∧ Vanishes r) ∧
      (∀ r ∈ imfs, r.length = S.length) ∧ trend.length = S.length ∧
      ∀ i s, S[i]? = some s → |s - (colSum imfs i + trend.getD i 0)| ≤ 1 / 50000000 := by
  unfold Obj.emd at h
  split at h
  case h_2 => cases h
  case h_1 R' hR =>
  cases h
  obtain ⟨C, hC, hcase⟩ := emd_spec hR
  have hres := EMD.isResidue_vsub S C hC
  generalize vsub S (sumRows S.length C) = res at hres hcase
  -- the sum of all rows
  have hlen : ∀ r ∈ R, r.length = S.length := by
    rcases hcase with ⟨-, rfl⟩ | ⟨-, rfl⟩
    · exact hC
    · intro r hr
      rcases List.mem_append.1 hr with h' | h'
      · exact hC r h'
      · rw [List.mem_singleton.1 h']; exact hres.1
  have hsum : ∀ i s, S[i]? = some s → |s - colSum R i| ≤ 1 / 100000000 := by
    intro i s hs
    have hi : i < S.length := (List.getElem?_eq_some_iff.1 hs).1
    obtain ⟨s', hs', hr'⟩ := hres.2 i hi
    obtain rfl : s = s' := Option.some.inj (hs.symm.trans hs')
    rcases hcase with ⟨hv, rfl⟩ | ⟨-, rfl⟩
    · have := (EMD.allclose0_iff res).1 hv _ (List.mem_of_getElem? hr')
      rw [pyAbs_eq, lit_eq] at this
      push_cast at this
      exact this
    · rw [colSum_eq, List.map_append, List.sum_append, ← colSum_eq]
      have : res.getD i 0 = s - colSum C i := by rw [List.getD_eq_getElem?_getD, hr']; rfl
      simp only [List.map_cons, List.map_nil, List.sum_cons, List.sum_nil, this]
      rw [show s - (colSum C i + (s - colSum C i + 0)) = 0 by ring, abs_zero]
      norm_num
  have hv2 : ∀ r : List K, Vanishes r → ∀ i, |r.getD i 0| ≤ 1 / 100000000 := by
    intro r hr i
    rcases lt_or_ge i r.length with hi | hi
    · have := hr r[i] (List.getElem_mem hi)
      rw [pyAbs_eq, lit_eq] at this
      push_cast at this
      rw [List.getD_eq_getElem?_getD, List.getElem?_eq_getElem hi]
      exact this
    · rw [List.getD_eq_getElem?_getD, List.getElem?_eq_none hi]
      simp
  obtain ⟨x, hx, hxb⟩ := hbig
  obtain ⟨j, hj, rfl⟩ := List.getElem_of_mem hx
  have hsj := hsum j _ (List.getElem?_eq_getElem hj)
  rcases nil_or_concat R with rfl | ⟨A, r, rfl⟩
  · exfalso
    simp [colSum_eq] at hsj
    linarith [hsj, hxb]
  · obtain ⟨e1, e2⟩ := slice_last A r
    unfold Obj.getImfsAndTrend
    simp only [e1, e2, List.all_cons, List.all_nil, Bool.and_true]
    have hcs : ∀ (B : List (List K)) (b : List K) i, colSum (B ++ [b]) i = colSum B i + b.getD i 0 := by
      intro B b i
      rw [colSum_eq, colSum_eq]
      simp
    by_cases hr : allclose0 r = true
    · rw [if_pos hr]
      rw [EMD.allclose0_iff] at hr
      rcases nil_or_concat A with rfl | ⟨B, b, rfl⟩
      · exfalso
        rw [hcs] at hsj
        have h2 := hv2 r hr j
        simp [colSum_eq] at hsj h2
        have h3 := abs_sub_abs_le_abs_sub (S[j]) (r[j]?.getD 0)
        linarith
      · obtain ⟨f1, -⟩ := slice_last B b
        rw [EMD.pyGet_last _ (by simp)]
        simp only [bind, Except.bind, pure, Except.pure, f1]
        refine ⟨B, b, by simp, .inr ⟨r, rfl, hr⟩, fun c hc => hlen c (by simp [hc]), hlen b (by simp), ?_⟩
        intro i s hs
        have h1 := hsum i s hs
        rw [hcs, hcs] at h1
        have h2 := hv2 r hr i
        have h3 := abs_add_le (s - (colSum B i + b.getD i 0 + r.getD i 0)) (r.getD i 0)
        rw [show s - (colSum B i + b.getD i 0 + r.getD i 0) + r.getD i 0 = s - (colSum B i + b.getD i 0) by ring] at h3
        linarith
    · rw [if_neg hr]
      refine ⟨A, r, rfl, .inl rfl, fun c hc => hlen c (by simp [hc]), hlen r (by simp), ?_⟩
      intro i s hs
      have h1 := hsum i s hs
      rw [hcs] at h1
      linarith

/-- The hypotheses of `C57_partial` on a signal with several components. -/
example : okWith (fun R => R.length == 3)
      ((Obj.new EMD.sampleCfg).emd 20 linSciPy EMD.sampleS ((List.range 10).map (fun k : Nat => (k : ℚ))) (-1)).1 = true ∧
    okWith (fun p => p.1.length == 2 && p.2.length == 1)
      ((Obj.new EMD.sampleCfg).emd 20 linSciPy EMD.sampleS ((List.range 10).map (fun k : Nat => (k : ℚ))) (-1)).2.getImfsAndTrend = true ∧
    ∃ x ∈ EMD.sampleS, (1 / 50000000 : ℚ) < |x| :=
  ⟨by decide +kernel, by decide +kernel, 3, by decide, by norm_num [abs_of_pos]⟩

/-- **C57 is false without the hypothesis**: for the zero signal `emd` returns no row and `get_imfs_and_trend()` raises `IndexError`. -/
theorem C57_counterexample :
    ((Obj.new EMD.sampleCfg).emd 20 linSciPy [0, 0, 0] [0, 1, (2 : ℚ)] (-1)).1 = .ok [] ∧
    ((Obj.new EMD.sampleCfg).emd 20 linSciPy [0, 0, 0] [0, 1, (2 : ℚ)] (-1)).2.getImfsAndTrend = .error .indexError := by
  constructor
  · have : okWith (fun R => R == []) ((Obj.new EMD.sampleCfg).emd 20 linSciPy [0, 0, 0] [0, 1, (2 : ℚ)] (-1)).1 = true := by
      decide +kernel
    obtain ⟨R, h, h'⟩ := okWith_iff.1 this
    rw [h, eq_of_beq h']
  · exact errIs_iff.1 (by decide +kernel)

end Exact
end Jit
end PyEMD
