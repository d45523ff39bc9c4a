import Verif.Lemmas.Reversal
import Verif.Spec.Samples

/-!
# Decomposition of the signal run backwards (C82)
-/

set_option linter.unusedSectionVars false

namespace PyEMD
namespace EMD
open Spec

variable {K : Type} [Field K] [LinearOrder K] [IsStrictOrderedRing K] [FloorRing K]

theorem vsub_reverse {a b : List K} (h : a.length = b.length) : vsub a.reverse b.reverse = (vsub a b).reverse := by
  unfold vsub
  rw [List.reverse_zipWith h]

theorem vadd_reverse {a b : List K} (h : a.length = b.length) : vadd a.reverse b.reverse = (vadd a b).reverse := by
  unfold vadd
  rw [List.reverse_zipWith h]

theorem sumRows_reverse {n : Nat} {rows : List (List K)} (h : ∀ r ∈ rows, r.length = n) :
    sumRows n (rows.map List.reverse) = (sumRows n rows).reverse := by
  have key : ∀ (rows : List (List K)) (acc : List K), acc.length = n → (∀ r ∈ rows, r.length = n) →
      (rows.map List.reverse).foldl vadd acc.reverse = (rows.foldl vadd acc).reverse := by
    intro rows
    induction rows with
    | nil => intro acc _ _; rfl
    | cons r rows ih =>
      intro acc ha hr
      have h1 := hr r (by simp)
      simp only [List.map_cons, List.foldl_cons]
      rw [vadd_reverse (by rw [ha, h1])]
      exact ih _ (by simp [vadd, ha, h1]) (fun q hq => hr q (by simp [hq]))
  have : (vzeros n : List K) = (vzeros n : List K).reverse := by simp [vzeros]
  unfold sumRows
  conv_lhs => rw [this]
  exact key rows _ (by simp [vzeros]) h

theorem reverse_two (x x' : K) (a : List K) : ∃ u v w, (x :: x' :: a).reverse = u :: v :: w := by
  cases hc : (x :: x' :: a).reverse with
  | nil => simp at hc
  | cons u l =>
    cases l with
    | nil => have := congrArg List.length hc; simp at this
    | cons v w => exact ⟨u, v, w, rfl⟩

theorem bcast_reverse (f : K → K → K) (a b : List K) : bcast f a.reverse b.reverse = (bcast f a b).map List.reverse := by
  unfold bcast
  rw [List.length_reverse, List.length_reverse]
  split
  · next h =>
    rw [← List.reverse_zipWith h]
    rfl
  · match a, b with
    | [], [] => rfl
    | [], [y] => rfl
    | [], y :: z :: b => 
      obtain ⟨u, v, w, e⟩ := reverse_two y z b
      rw [e]
      rfl
    | [x], b => 
      show Except.ok _ = Except.ok _
      simp
    | x :: x' :: a, [y] =>
      obtain ⟨u, v, w, e⟩ := reverse_two x x' a
      have e2 : (List.map (fun z => f z y) (x :: x' :: a)).reverse = List.map (fun z => f z y) (u :: v :: w) := by rw [← e, List.map_reverse]
      rw [e]
      show Except.ok _ = Except.ok _
      rw [e2]
    | x :: x' :: a, [] =>
      obtain ⟨u, v, w, e⟩ := reverse_two x x' a
      rw [e]
      rfl
    | x :: x' :: a, y :: y' :: b =>
      obtain ⟨u, v, w, e⟩   := reverse_two x x' a
      obtain ⟨u', v', w', e'⟩ := reverse_two y y' b
      rw [e, e']
      rfl

theorem assignAll_reverse (n : Nat) (s : List K) : assignAll n s.reverse = (assignAll n s).map List.reverse := by
  unfold assignAll
  rw [List.length_reverse]
  split
  · rfl
  · match s with
    | [] => rfl
    | [x] => show Except.ok _ = Except.ok _; simp
    | x :: x' :: a =>
      obtain ⟨u, v, w, e⟩ := reverse_two x x' a
      rw [e]
      rfl

theorem siftOnce_reverse {sp : SciPy K} (hr : ReversibleAll sp) {cfg : Cfg K} (hd : cfg.detection = .simple) (hnb : 1 ≤ cfg.nbsym)
    {x : List K} (h : NoTies x) :
    RelX (fun r r' => r' = (r.1.reverse, back ((x.length : K) - 1) r.2.1, back ((x.length : K) - 1) r.2.2))
      (siftOnce sp cfg (timeArr x.length) x) (siftOnce sp cfg (timeArr x.length) x.reverse) := by
  obtain ⟨e, e', h1, h2, hx, hn, l1, l2, -⟩ := findExtrema_reverse h
  unfold siftOnce extractMaxMinSpline
  rw [hd, h1, h2]
  simp only [ok_bind, l1, l2]
  by_cases hlt : e.maxPos.length + e.minPos.length < 3
  · rw [if_pos hlt, if_pos hlt]
    rfl
  · rw [if_neg hlt, if_neg hlt]
    obtain ⟨kx, kn, p1, p2, g1, g2⟩ := preparePoints_reverse hnb h1 h2 hx hn (by omega) (by omega)
    rw [p1, p2]
    simp only [ok_bind, bind_assoc]
    refine (splinePoints_reverse hr _ g1.three g1.increasing g1.covers).bind ?_
    rintro ⟨t1, q1⟩ ⟨t1', q1'⟩ - - hq1
    have hq1 : q1' = q1.reverse := hq1
    subst hq1
    refine (splinePoints_reverse hr _ g2.three g2.increasing g2.covers).bind ?_
    rintro ⟨t2, q2⟩ ⟨t2', q2'⟩ - - hq2
    have hq2 : q2' = q2.reverse := hq2
    subst hq2
    simp only [pure_bind]
    refine (RelX.of_eq (f := List.reverse) (R := fun r r' => r' = r.reverse) (fun _ => rfl) (bcast_reverse _ q1 q2)).bind ?_
    rintro s _ - - rfl
    rw [List.map_reverse, List.length_reverse]
    refine (RelX.of_eq (f := List.reverse) (R := fun r r' => r' = r.reverse) (fun _ => rfl) (assignAll_reverse _ _)).bind ?_
    rintro mean _ hm - rfl
    refine .pure ?_
    rw [vsub_reverse (assignAll_length hm).symm]

/-! ## Tests on whole arrays -/

theorem npMax_reverse (l : List K) (h : l ≠ []) : npMax l.reverse = npMax l := by
  obtain ⟨a, b⟩ := npMax_spec (l := l.reverse) (by simpa using h)
  obtain ⟨c, d⟩ := npMax_spec h
  exact le_antisymm (d _ (by simpa using a)) (b _ (by simpa using c))

theorem npMin_reverse (l : List K) (h : l ≠ []) : npMin l.reverse = npMin l := by
  obtain ⟨a, b⟩ := npMin_spec (l := l.reverse) (by simpa using h)
  obtain ⟨c, d⟩ := npMin_spec h
  exact le_antisymm (b _ (by simpa using c)) (d _ (by simpa using a))

theorem npSum_reverse (l : List K) : npSum l.reverse = npSum l := by
  rw [npSum_eq, npSum_eq, List.sum_reverse]

theorem endCondition_reverse (cfg : Cfg K) (S : List K) (IMF : List (List K)) (h : ∀ r ∈ IMF, r.length = S.length) :
    endCondition cfg S.reverse (IMF.map List.reverse) = endCondition cfg S IMF := by
  unfold endCondition
  rw [List.length_reverse, sumRows_reverse h, vsub_reverse (by rw [length_sumRows _ _ h])]
  generalize vsub S (sumRows S.length IMF) = r
  rcases eq_or_ne r [] with rfl | hne
  · rfl
  · simp only [npMaxE, npMinE, npMax_reverse r hne, npMin_reverse r hne, List.map_reverse, npSum_reverse, List.isEmpty_reverse]

theorem any_back (c : K) (k : List (K × K)) (p : K → Bool) : (back c k).any (fun q => p q.2) = k.any (fun q => p q.2) := by
  unfold back
  rw [List.any_reverse, List.any_map]
  rfl

theorem checkImf_reverse (cfg : Cfg K) {a b : List K} (h : a.length = b.length) (c : K) (k k' : List (K × K)) :
    checkImf cfg a.reverse b.reverse (back c k) (back c k') = checkImf cfg a b k k' := by
  unfold checkImf
  rw [any_back c k (fun v => decide (v < lit 0)), any_back c k' (fun v => decide (lit 0 < v)), vsub_reverse h]
  dsimp only
  rw [← List.reverse_zipWith (by simp [vsub, h])]
  simp only [List.map_reverse, npSum_reverse, List.any_reverse]
  rcases eq_or_ne b [] with rfl | hne
  · rfl
  · have hne' : b.reverse ≠ [] := by simpa using hne
    rw [pyMax_eq hne, pyMin_eq hne, pyMax_eq hne', pyMin_eq hne', npMax_reverse b hne, npMin_reverse b hne]

/-! ## The loops -/

/-- Sifting state run backwards. -/
def Sift.rev (s : Sift K) : Sift K := { s with imf := s.imf.reverse }

/-- Outcome of a pass run backwards. -/
def SiftStep.rev : SiftStep K → SiftStep K
  | .brk s why => .brk s.rev why
  | .cont s => .cont s.rev

/-- Proto-IMF after a pass. -/
def SiftStep.out : SiftStep K → List K
  | .brk s _ => s.imf
  | .cont s => s.imf

theorem siftBody_reverse {sp : SciPy K} (hr : ReversibleAll sp) {cfg : Cfg K} (hd : cfg.detection = .simple) (hnb : 1 ≤ cfg.nbsym)
    (n : Nat) (s : Sift K) (hn : s.imf.length = n) (hs : NoTies s.imf)
    (hv : ∀ r, siftBody sp cfg (timeArr n) s = .ok r → NoTies r.out) :
    RelX (fun r r' => r' = r.rev ∧ r.out.length = n) (siftBody sp cfg (timeArr n) s) (siftBody sp cfg (timeArr n) s.rev) := by
  subst hn
  unfold siftBody at hv ⊢
  dsimp only [Sift.rev] at hv ⊢
  split at hv
  · next hM =>
    rw [if_pos hM, if_pos hM]
    exact .pure ⟨rfl, rfl⟩
  · next hM =>
    rw [if_neg hM, if_neg hM]
    rw [countExt_reverse hd hs]
    cases hc : countExt cfg (timeArr s.imf.length) s.imf with
    | error e => rfl
    | ok ez =>
      obtain ⟨e, z⟩ := ez
      rw [hc] at hv
      simp only [ok_bind] at hv ⊢
      split at hv
      · next h2 =>
        rw [if_pos h2, if_pos h2]
        have hone := siftOnce_reverse hr hd hnb hs
        revert hv hone
        cases hy : siftOnce sp cfg (timeArr s.imf.length) s.imf with
        | error e =>
          intro hv hone
          cases hy' : siftOnce sp cfg (timeArr s.imf.length) s.imf.reverse with
          | error e' => rw [hy'] at hone; exact hone
          | ok r => rw [hy'] at hone; exact hone.elim
        | ok r =>
          intro hv hone
          cases hy' : siftOnce sp cfg (timeArr s.imf.length) s.imf.reverse with
          | error e' => rw [hy'] at hone; exact hone.elim
          | ok r' =>
            rw [hy'] at hone
            have hone : r' = _ := hone
            subst hone
            obtain ⟨y, kx, kn⟩ := r
            have hyl : y.length = s.imf.length := siftOnce_length hy
            simp only [ok_bind] at hv ⊢
            split at hv
            · next hF =>
              rw [if_pos hF, if_pos hF]
              split
              · exact .pure ⟨rfl, hyl⟩
              · exact .pure ⟨rfl, hyl⟩
            · next hF =>
              rw [if_neg hF, if_neg hF]
              obtain ⟨e1, z1, hc1⟩ := countExt_ok hd y
              rw [hyl] at hc1
              have hflat : NoTies y := by
                rw [hc1] at hv
                simp only [ok_bind] at hv
                split at hv
                · split at hv
                  · exact hv _ rfl
                  · split at hv <;> split at hv <;> exact hv _ rfl
                · have hne : s.imf ≠ [] := by
                    intro h0
                    rw [h0] at hc
                    have : countExt cfg (timeArr 0) ([] : List K) = .ok (0, 0) := by
                      unfold countExt; rw [hd]; rfl
                    rw [show countExt cfg (timeArr ([] : List K).length) ([] : List K) = _ from this] at hc
                    injection hc with hc
                    injection hc with hc
                    omega
                  obtain ⟨f, hf⟩ := checkImf_ok cfg y _ hne kx kn
                  rw [hf] at hv
                  simp only [ok_bind] at hv
                  split at hv <;> exact hv _ rfl
              have hcr : countExt cfg (timeArr s.imf.length) y.reverse = .ok (e1, z1) := by
                rw [← hyl, countExt_reverse hd hflat, hyl, hc1]
              rw [hc1, hcr, checkImf_reverse cfg hyl]
              simp only [ok_bind]
              split
              · split
                · exact .pure ⟨rfl, hyl⟩
                · split <;> split <;> exact .pure ⟨rfl, hyl⟩
              · refine (RelX.refl _).bind ?_
                rintro f _ - - rfl
                split <;> exact .pure ⟨rfl, hyl⟩
      · next h2 =>
        rw [if_neg h2, if_neg h2]
        exact .pure ⟨rfl, rfl⟩

theorem siftLoop_reverse {sp : SciPy K} (hr : ReversibleAll sp) {cfg : Cfg K} (hd : cfg.detection = .simple) (hnb : 1 ≤ cfg.nbsym)
    (n fuel : Nat) (s : Sift K) (hn : s.imf.length = n) (hv : ∀ x, Visits sp cfg (timeArr n) s x → NoTies x) :
    RelX (fun r r' => r' = (r.1.rev, r.2) ∧ r.1.imf.length = n) (siftLoop sp cfg (timeArr n) fuel s) (siftLoop sp cfg (timeArr n) fuel s.rev) := by
  induction fuel generalizing s with
  | zero => rfl
  | succ fuel ih =>
    unfold siftLoop
    refine (siftBody_reverse hr hd hnb n s hn (hv _ (.here s)) ?_).bind ?_
    · intro r h
      match r with
      | .brk s' why => exact hv _ (.last h)
      | .cont s' => exact hv _ (.step h (.here s'))
    · intro r r' h1 _ h2
      obtain ⟨rfl, hl⟩ := h2
      match r with
      | .brk s' why => exact .pure ⟨rfl, hl⟩
      | .cont s' => exact ih s' hl (fun x hx => hv x (.step h1 hx))

/-- Component run backwards. -/
def Round.rev (r : Round K) : Round K := { r with imf := r.imf.reverse }

theorem rounds_rev (l : List (Round K)) : (l.map Round.rev).map (fun x : Round K => x.imf) = (l.map (fun x : Round K => x.imf)).map List.reverse := by
  simp [Round.rev, Function.comp_def]

theorem emdLoop_reverse {sp : SciPy K} (hr : ReversibleAll sp) {cfg : Cfg K} (hd : cfg.detection = .simple) (hnb : 1 ≤ cfg.nbsym)
    (S : List K) (m : Int) (fuel : Nat) (rounds : List (Round K)) (h : ∀ r ∈ rounds, r.imf.length = S.length) (e : Int)
    (hv : ∀ x, Occurs sp cfg (timeArr S.length) S m rounds e x → NoTies x) :
    RelX (fun r r' => r' = (r.1.map Round.rev, r.2) ∧ ∀ q ∈ r.1, q.imf.length = S.length) (emdLoop sp cfg (timeArr S.length) S m fuel rounds e)
      (emdLoop sp cfg (timeArr S.length) S.reverse m fuel (rounds.map Round.rev) e) := by
  induction fuel generalizing rounds e with
  | zero => rfl
  | succ fuel ih =>
    have hrow : ∀ r ∈ rounds.map (fun x : Round K => x.imf), r.length = S.length := by
      simp only [List.mem_map]
      rintro _ ⟨r, hr, rfl⟩
      exact h r hr
    have hround : RelX (fun r r' => r' = (r.1.rev, r.2) ∧ r.1.imf.length = S.length) (emdRound sp cfg (timeArr S.length) S (rounds.map (·.imf)) e)
        (emdRound sp cfg (timeArr S.length) S.reverse ((rounds.map (·.imf)).map List.reverse) e) := by
      unfold emdRound
      rw [List.length_reverse, sumRows_reverse hrow, vsub_reverse (by rw [length_sumRows _ _ hrow])]
      refine siftLoop_reverse hr hd hnb S.length _ { n := 0, nh := 0, extNo := e, imf := vsub S (sumRows S.length (rounds.map (·.imf))), subs := 0 } ?_ ?_
      · show (vsub S (sumRows S.length (rounds.map (·.imf)))).length = S.length
        rw [length_vsub, length_sumRows _ _ hrow, Nat.min_self]
      · exact fun x hx => hv x (.sift hx)
    unfold emdLoop
    rw [rounds_rev]
    refine hround.bind ?_
    rintro ⟨s, why⟩ _ h1 - ⟨rfl, hl⟩
    dsimp only at hl ⊢
    have happ : rounds.map Round.rev ++ [({ imf := s.rev.imf, why, subs := s.rev.subs, nh := s.rev.nh } : Round K)] =
        (rounds ++ [({ imf := s.imf, why, subs := s.subs, nh := s.nh } : Round K)]).map Round.rev := by simp [Round.rev, Sift.rev]
    have hI : ∀ r ∈ rounds ++ [({ imf := s.imf, why, subs := s.subs, nh := s.nh } : Round K)], r.imf.length = S.length := by
      intro r hr
      rw [List.mem_append, List.mem_singleton] at hr
      rcases hr with hr | rfl
      · exact h r hr
      · exact hl
    have hI' : ∀ r ∈ (rounds ++ [({ imf := s.imf, why, subs := s.subs, nh := s.nh } : Round K)]).map (fun x : Round K => x.imf), r.length = S.length := by
      simp only [List.mem_map]
      rintro _ ⟨r, hr, rfl⟩
      exact hI r hr
    rw [happ, rounds_rev, endCondition_reverse cfg S _ hI']
    refine (RelX.refl _).bind ?_
    rintro f _ hf - rfl
    rw [List.length_map]
    split
    · exact .pure ⟨rfl, hI⟩
    · next hc =>
      refine ih _ hI _ ?_
      intro x hx
      rw [Bool.or_eq_true, Bool.or_eq_true, not_or, not_or] at hc
      obtain ⟨⟨c1, c2⟩, c3⟩ := hc
      refine hv x (.next h1 ?_ ?_ ?_ hx)
      · rw [hf, Bool.not_eq_true _ |>.mp c1]
      · intro hm
        apply c2
        rw [decide_eq_true_iff, List.length_append, List.length_singleton]
        push_cast
        exact hm
      · rintro rfl
        exact c3 rfl

theorem emdPure_reverse (fuel : Nat) {sp : SciPy K} (hr : ReversibleAll sp) {cfg : Cfg K} (hd : cfg.detection = .simple) (hnb : 1 ≤ cfg.nbsym)
    (S : List K) (T : Option (List K)) (m : Int) (hv : ∀ x, Occurs sp cfg (timeArr S.length) S m [] (-1) x → NoTies x) :
    RelX (fun r r' : Result K => r'.rows = r.rows.map List.reverse ∧ r'.imfs = r.imfs.map List.reverse ∧ r'.residue = r.residue.reverse)
      (emdPure fuel sp cfg S T m) (emdPure fuel sp cfg S.reverse T m) := by
  have h1 : prepareTime cfg S.reverse T = prepareTime cfg S T := by
    unfold prepareTime
    rw [List.length_reverse, hd]
  have h2 := (prepareTime_cases cfg hd S T).2
  unfold emdPure emdRounds
  rw [h1]
  simp only [bind_assoc]
  refine (RelX.refl _).bind ?_
  rintro T' _ hT - rfl
  rw [h2 T' hT]
  refine (emdLoop_reverse hr hd hnb S m fuel [] (by simp) (-1) hv).bind ?_
  rintro ⟨rounds, e⟩ _ - - ⟨rfl, hI⟩
  dsimp only at hI ⊢
  refine .pure ?_
  unfold finish
  rw [rounds_rev]
  have key : (if e ≤ 2 then ((rounds.map (fun x : Round K => x.imf)).map List.reverse).dropLast else (rounds.map (fun x : Round K => x.imf)).map List.reverse) =
      (if e ≤ 2 then (rounds.map (fun x : Round K => x.imf)).dropLast else rounds.map (fun x : Round K => x.imf)).map List.reverse := by
    split
    · rw [List.map_dropLast]
    · rfl
  have hrow : ∀ r ∈ (if e ≤ 2 then (rounds.map (fun x : Round K => x.imf)).dropLast else rounds.map (fun x : Round K => x.imf)), r.length = S.length := by
    have : ∀ r ∈ rounds.map (fun x : Round K => x.imf), r.length = S.length := by
      simp only [List.mem_map]
      rintro _ ⟨r, hr, rfl⟩
      exact hI r hr
    intro r hr
    split at hr
    · exact this r (List.mem_of_mem_dropLast hr)
    · exact this r hr
  dsimp only
  rw [key]
  generalize (if e ≤ 2 then (rounds.map (fun x : Round K => x.imf)).dropLast else rounds.map (fun x : Round K => x.imf)) = imfs at hrow
  rw [List.length_reverse, sumRows_reverse hrow, vsub_reverse (by rw [length_sumRows _ _ hrow])]
  refine ⟨?_, rfl, rfl⟩
  have ha : ∀ l : List K, allclose0 l.reverse = allclose0 l := by
    intro l
    unfold allclose0
    rw [List.all_reverse]
  rw [ha]
  split
  · rfl
  · rw [List.map_append]
    rfl

/-- C82: the decomposition of a signal run backwards is the decomposition run backwards: returned rows, stored IMFs and stored residue
are reversed, and an exception is raised for the one signal iff the same exception is raised for the other.  This holds for every
stopping rule, limit and kind of spline.  Proved for simple detection, `nbsym ≥ 1`, interpolators that do not prefer a direction of time,
and decompositions in which no two neighbouring samples of a proto-IMF are equal.  Missing: signals with plateaus, for which the claim
is false (`C82_counterexample`). -/
theorem C82_reversal_partial (fuel : Nat) (sp : SciPy K) (hr : ReversibleAll sp) (o : Obj K) (hd : o.cfg.detection = .simple)
    (hnb : 1 ≤ o.cfg.nbsym) (S : List K) (T : Option (List K)) (m : Int)
    (hv : ∀ x, Occurs sp o.cfg ((List.range S.length).map (fun k : Nat => (k : K))) S m [] (-1) x → NoTies x) :
    (∃ rows imfs residue, Obj.emd fuel sp o S T m = (.ok rows, { o with imfs := some imfs, residue := some residue }) ∧
      Obj.emd fuel sp o S.reverse T m =
        (.ok (rows.map List.reverse), { o with imfs := some (imfs.map List.reverse), residue := some residue.reverse })) ∨
    (∃ e, Obj.emd fuel sp o S T m = (.error e, o) ∧ Obj.emd fuel sp o S.reverse T m = (.error e, o)) := by
  have h := emdPure_reverse fuel hr hd hnb S T m hv
  unfold Obj.emd
  cases h1 : emdPure fuel sp o.cfg S T m with
  | ok r =>
    cases h2 : emdPure fuel sp o.cfg S.reverse T m with
    | error e => rw [h1, h2] at h; exact h.elim
    | ok r' =>
      rw [h1, h2] at h
      obtain ⟨a, b, c⟩ := h
      exact .inl ⟨r.rows, r.imfs, r.residue, rfl, by rw [← a, ← b, ← c]⟩
  | error e =>
    cases h2 : emdPure fuel sp o.cfg S.reverse T m with
    | ok r' => rw [h1, h2] at h; exact h.elim
    | error e' =>
      rw [h1, h2] at h
      have h : e = e' := h
      subst h
      exact .inr ⟨e, rfl, rfl⟩

/-! ## The hypotheses can be met -/

/-- Value at `t` of the line through two knots. -/
def lineAt (p q : K × K) (t : K) : K := p.2 + (q.2 - p.2) / (q.1 - p.1) * (t - p.1)

theorem linAt_pair (l : List (K × K)) (p q : K × K) (r : List (K × K)) (h : (l ++ p :: q :: r).Pairwise (fun p q => p.1 < q.1)) (t : K)
    (h1 : p.1 ≤ t) (h2 : t ≤ q.1) : linAt (l ++ p :: q :: r) t = lineAt p q t := by
  induction l with
  | nil =>
    show (if t ≤ q.1 then _ else _) = _
    rw [if_pos h2]
    rfl
  | cons a l ih =>
    have h' := (List.pairwise_cons.1 h).2
    have ih := ih h'
    cases l with
    | nil =>
      show (if t ≤ p.1 then a.2 + (p.2 - a.2) / (p.1 - a.1) * (t - a.1) else linAt (p :: q :: r) t) = _
      split
      · next h3 =>
        have ht : t = p.1 := le_antisymm h3 h1
        have hap : a.1 < p.1 := (List.pairwise_cons.1 h).1 p (by simp)
        have : p.1 - a.1 ≠ 0 := (sub_pos.2 hap).ne'
        rw [ht, lineAt, div_mul_cancel₀ _ this]
        ring
      · exact ih
    | cons b l =>
      have hb : b.1 < p.1 := (List.pairwise_cons.1 h').1 p (by simp)
      show (if t ≤ b.1 then _ else linAt (b :: l ++ p :: q :: r) t) = _
      rw [if_neg (not_le.2 (hb.trans_le h1))]
      exact ih

theorem exists_pair (k : List (K × K)) (t : K) : ∀ a b : K × K, k.head? = some a → k.getLast? = some b → 2 ≤ k.length → a.1 ≤ t → t ≤ b.1 →
    ∃ l p q r, k = l ++ p :: q :: r ∧ p.1 ≤ t ∧ t ≤ q.1 := by
  induction k with
  | nil => intro a b ha; cases ha
  | cons x k ih =>
    intro a b ha hb h2 hat htb
    have hxa : x = a := by simpa using ha
    subst hxa
    cases k with
    | nil => simp at h2
    | cons y k =>
      by_cases hy : t ≤ y.1
      · exact ⟨[], x, y, k, rfl, hat, hy⟩
      · cases k with
        | nil =>
          have : y = b := by simpa using hb
          subst this
          exact absurd htb hy
        | cons z k =>
          obtain ⟨l, p, q, r, e, h⟩ := ih y b rfl (by simpa using hb) (by simp) (not_le.1 hy).le htb
          exact ⟨x :: l, p, q, r, by rw [e]; rfl, h⟩

theorem lineAt_back {p q : K × K} (h : p.1 < q.1) (c t : K) : lineAt (c - q.1, q.2) (c - p.1, p.2) (c - t) = lineAt p q t := by
  have h1 : q.1 - p.1 ≠ 0 := (sub_pos.2 h).ne'
  unfold lineAt
  dsimp only
  rw [show c - p.1 - (c - q.1) = q.1 - p.1 by ring]
  field_simp
  ring

/-- Linear interpolation does not prefer a direction of time. -/
theorem strictLin_reversible : Reversible (strictLin (α := K)) := by
  intro c X Y t h3 hl hX ht
  unfold strictLin
  have hz : ((X.map (fun x => c - x)).reverse).zip Y.reverse = back c (X.zip Y) := by
    unfold back
    unfold List.zip
    rw [← List.reverse_zipWith (by simpa using hl), List.zipWith_map_left, List.map_zipWith]
  rw [hz]
  have hlen : (X.zip Y).length = X.length := by rw [List.length_zip, hl, Nat.min_self]
  have hfst : (X.zip Y).map Prod.fst = X := by rw [List.map_fst_zip (by omega)]
  have hne : (X.zip Y).isEmpty = false := by
    rw [List.isEmpty_eq_false_iff]
    intro h0
    rw [h0] at hlen
    simp at hlen
    omega
  have hne' : (back c (X.zip Y)).isEmpty = false := by
    unfold back
    rw [List.isEmpty_reverse, List.isEmpty_map]
    exact hne
  rw [hne, hne']
  simp only [Bool.false_eq_true, if_false, Option.map_some, Option.some.injEq]
  rw [List.map_reverse, List.map_map]
  congr 1
  apply List.map_congr_left
  intro τ hτ
  obtain ⟨a, b, ha, hb, h1, h2⟩ := ht τ hτ
  have hinc : (X.zip Y).Pairwise (fun p q => p.1 < q.1) := by
    rw [← List.pairwise_map (f := Prod.fst) (R := (· < ·)), hfst]
    exact hX
  rw [← hfst, List.head?_map, Option.map_eq_some_iff] at ha
  rw [← hfst, List.getLast?_map, Option.map_eq_some_iff] at hb
  obtain ⟨a, ha, rfl⟩ := ha
  obtain ⟨b, hb, rfl⟩ := hb
  obtain ⟨l, p, q, r, e, hp, hq⟩ := exists_pair (X.zip Y) τ a b ha hb (by omega) h1 h2
  have hback : back c (X.zip Y) = back c r ++ (c - q.1, q.2) :: (c - p.1, p.2) :: back c l := by
    rw [e]
    simp [back]
  have hinc' := back_sorted (c := c) hinc
  have hpq : p.1 < q.1 := by
    rw [e] at hinc
    exact (List.pairwise_cons.1 (List.pairwise_append.1 hinc).2.1).1 q (by simp)
  simp only [Function.comp_def]
  rw [hback] at hinc' ⊢
  rw [linAt_pair _ _ _ _ hinc' _ (by show c - q.1 ≤ c - τ; linarith) (by show c - τ ≤ c - p.1; linarith), lineAt_back hpq]
  rw [e] at hinc ⊢
  rw [linAt_pair _ _ _ _ hinc _ hp hq]

theorem strictLinSciPy_reversible : ReversibleAll (strictLinSciPy (α := K)) :=
  ⟨strictLin_reversible, strictLin_reversible, strictLin_reversible, strictLin_reversible, strictLin_reversible, strictLin_reversible,
    strictLin_reversible⟩

/-- Test for `NoTies`. -/
def noTiesB : List ℚ → Bool
  | x :: y :: r => !(x == y) && noTiesB (y :: r)
  | _ => true

theorem noTiesB_sound (l : List ℚ) (h : noTiesB l = true) : NoTies l := by
  induction l with
  | nil => intro i hi; simp at hi
  | cons x l ih =>
    cases l with
    | nil => intro i hi; simp at hi
    | cons y r =>
      have h : (!(x == y) && noTiesB (y :: r)) = true := h
      rw [Bool.and_eq_true] at h
      intro i hi
      match i with
      | 0 => simpa using h.1
      | i + 1 => exact ih h.2 i (by simpa using hi)

/-- Test that one sifting ends within `fuel` passes and shows no equal neighbours. -/
def siftFree (sp : SciPy ℚ) (cfg : Cfg ℚ) (T : List ℚ) : Nat → Sift ℚ → Bool
  | 0, _ => false
  | fuel + 1, s => noTiesB s.imf &&
    match siftBody sp cfg T s with
    | .error _ => true
    | .ok (.brk s' _) => noTiesB s'.imf
    | .ok (.cont s') => siftFree sp cfg T fuel s'

theorem siftFree_sound {sp : SciPy ℚ} {cfg : Cfg ℚ} {T : List ℚ} {s : Sift ℚ} {x : List ℚ} (hx : Visits sp cfg T s x) :
    ∀ fuel, siftFree sp cfg T fuel s = true → NoTies x := by
  induction hx with
  | here s =>
    intro fuel h
    match fuel with
    | fuel + 1 =>
      rw [siftFree, Bool.and_eq_true] at h
      exact noTiesB_sound _ h.1
  | last hb =>
    intro fuel h
    match fuel with
    | fuel + 1 =>
      rw [siftFree, Bool.and_eq_true, hb] at h
      exact noTiesB_sound _ h.2
  | step hb _ ih =>
    intro fuel h
    match fuel with
    | fuel + 1 =>
      rw [siftFree, Bool.and_eq_true, hb] at h
      exact ih fuel h.2

/-- Test that a decomposition ends within `fuel` rounds and shows no equal neighbours. -/
def runFree (sp : SciPy ℚ) (cfg : Cfg ℚ) (T S : List ℚ) (m : Int) : Nat → List (Round ℚ) → Int → Bool
  | 0, _, _ => false
  | fuel + 1, rounds, e =>
    siftFree sp cfg T (siftFuel cfg) { n := 0, nh := 0, extNo := e, imf := vsub S (sumRows S.length (rounds.map (·.imf))), subs := 0 } &&
    match emdRound sp cfg T S (rounds.map (·.imf)) e with
    | .error _ => true
    | .ok (s, why) =>
      let rounds' : List (Round ℚ) := rounds ++ [{ imf := s.imf, why, subs := s.subs, nh := s.nh }]
      match endCondition cfg S (rounds'.map (·.imf)) with
      | .ok false => decide ((rounds.length : Int) + 1 = m) || why == .trend || runFree sp cfg T S m fuel rounds' s.extNo
      | _ => true

theorem runFree_sound {sp : SciPy ℚ} {cfg : Cfg ℚ} {T S : List ℚ} {m : Int} {rounds : List (Round ℚ)} {e : Int} {x : List ℚ}
    (hx : Occurs sp cfg T S m rounds e x) : ∀ fuel, runFree sp cfg T S m fuel rounds e = true → NoTies x := by
  induction hx with
  | sift hv =>
    intro fuel h
    match fuel with
    | fuel + 1 =>
      rw [runFree, Bool.and_eq_true] at h
      exact siftFree_sound hv _ h.1
  | next h1 h2 h3 h4 _ ih =>
    intro fuel h
    match fuel with
    | fuel + 1 =>
      rw [runFree, Bool.and_eq_true, h1] at h
      have h := h.2
      dsimp only at h
      rw [h2] at h
      simp only [Bool.or_eq_true, decide_eq_true_eq, beq_iff_eq, h3, h4, false_or] at h
      exact ih fuel h

/-- The default stopping rule on a signal with eight extrema: every proto-IMF is free of equal neighbours. -/
example := C82_reversal_partial 20 strictLinSciPy strictLinSciPy_reversible (⟨sampleCfg, none, none⟩ : Obj ℚ) rfl (by decide) sampleS none (-1)
  (fun _ hx => runFree_sound hx 20 (by decide +kernel))

example : okWith (fun r : Result ℚ => decide (r.imfs.length = 2) && decide (r.rows.length = 3))
    (emdPure 20 strictLinSciPy sampleFixe sampleS none (-1)) = true := by decide +kernel

example := C82_reversal_partial 20 strictLinSciPy strictLinSciPy_reversible (⟨sampleFixe, none, none⟩ : Obj ℚ) rfl (by decide) sampleS none (-1)
  (fun _ hx => runFree_sound hx 20 (by decide +kernel))

/-- C82 is false for signals with plateaus: a maximum with two equal samples is put on one of them,
and on the other one when time runs backwards. -/
theorem C82_counterexample : ∃ (S : List ℚ) (R R' : Result ℚ), ReversibleAll (strictLinSciPy : SciPy ℚ) ∧
    emdPure 3 strictLinSciPy sampleFixe S none 1 = .ok R ∧ emdPure 3 strictLinSciPy sampleFixe S.reverse none 1 = .ok R' ∧
    R'.imfs ≠ R.imfs.map List.reverse := by
  have h1 : okWith (fun R : Result ℚ => (R.imfs.headD []).getD 0 0 == -8 / 9)
      (emdPure 3 strictLinSciPy sampleFixe [0, 3, -1, 2, 2, -2, 5, 1] none 1) = true := by decide +kernel
  have h2 : okWith (fun R : Result ℚ => (R.imfs.headD []).reverse.getD 0 0 == -19 / 24)
      (emdPure 3 strictLinSciPy sampleFixe ([0, 3, -1, 2, 2, -2, 5, 1] : List ℚ).reverse none 1) = true := by decide +kernel
  obtain ⟨R, e1, p1⟩ := okWith_iff.1 h1
  obtain ⟨R', e2, p2⟩ := okWith_iff.1 h2
  refine ⟨_, R, R', strictLinSciPy_reversible, e1, e2, ?_⟩
  intro h
  rw [h] at p2
  cases hi : R.imfs with
  | nil => rw [hi] at p1; norm_num at p1
  | cons x xs =>
    rw [hi] at p1 p2
    simp only [List.headD_cons, List.map_cons, List.reverse_reverse, beq_iff_eq] at p1 p2
    rw [p1] at p2
    norm_num at p2

end EMD
end PyEMD
