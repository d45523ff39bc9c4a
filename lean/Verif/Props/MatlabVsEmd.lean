import Verif.Props.MatlabTotal
import Verif.Props.Negation
import Verif.Props.Recursion

/-!
# `EMD_matlab` and `EMD` find the same components (C131)
-/

set_option linter.unusedSectionVars false

namespace PyEMD
namespace Matlab
open EMD (Extrema SplineKind sAt isPos isNeg reported timeArr)
open EMD.Spec PyEMD.Spec

variable {K : Type} [Field K] [LinearOrder K] [IsStrictOrderedRing K] [FloorRing K]

/-- The first two samples are equal, and so are the last two. -/
def FlatEnds (x : List K) : Prop :=
  ∃ a c, x[0]? = some a ∧ x[1]? = some a ∧ x[x.length - 2]? = some c ∧ x[x.length - 1]? = some c

theorem findExtrema_same {T x : List K} (hx : ¬FlatEnds x) : findExtrema T x = EMD.findExtrema .simple T x := by
  apply C67_partial
  rintro a b c e h0 h1 h2 h3 rfl rfl
  exact hx ⟨a, c, h0, h1, h2, h3⟩

/-- The settings of the two classes correspond. -/
structure SameSettings (M : Cfg K) (E : EMD.Cfg K) : Prop where
  convert : M.convert = id
  scale : M.reduceScale = 1
  nbsym : M.nbsym = E.nbsym
  kind : M.splineKind = E.splineKind
  simple : E.detection = .simple

theorem toInt_timeArr {n : Nat} (X : List Nat) (hX : ∀ i ∈ X, i < n) :
    (X.map (sAt (timeArr n : List K))).map toInt = X.map (fun k : Nat => (k : Int)) := by
  rw [List.map_map]
  apply List.map_congr_left
  intro i hi
  have h : sAt (timeArr n : List K) i = (i : K) := by
    have := hX i hi
    simp [sAt, timeArr, this]
  rw [Function.comp_apply, h, EMD.toInt_natCast]

theorem timeArr_sorted (n : Nat) : (timeArr n : List K).Pairwise (· < ·) := by
  unfold timeArr
  rw [List.pairwise_map]
  exact List.pairwise_lt_range.imp (fun h => by exact_mod_cast h)

theorem asBug_ok {β : Type} {x : PyM β} {b : β} (h : x = .ok b) : asBug x = .ok b := by rw [h]; rfl

theorem asBug_eq_ok {β : Type} {x : PyM β} {b : β} : asBug x = .ok b ↔ x = .ok b := by
  unfold asBug
  split
  · simp
  · rfl

/-- The knots are the same. -/
theorem preparePoints_same (nb : Int) (x : List K) (A B : List Nat) (hA : ∀ i ∈ A, i < x.length) (hB : ∀ i ∈ B, i < x.length)
    {k : List (K × K) × List (K × K)}
    (h : preparePoints id nb x (timeArr x.length) (A.map (sAt (timeArr x.length))) (B.map (sAt (timeArr x.length))) = .ok k) :
    EMD.preparePointsSimple nb (timeArr x.length) x (A.map (sAt (timeArr x.length))) (B.map (sAt (timeArr x.length))) = .ok k := by
  have tA := timeIdx_sAt (timeArr x.length : List K) (timeArr_sorted x.length) A (by rwa [EMD.timeArr_length])
  have tB := timeIdx_sAt (timeArr x.length : List K) (timeArr_sorted x.length) B (by rwa [EMD.timeArr_length])
  unfold preparePoints at h
  rw [tA, tB] at h
  unfold EMD.preparePointsSimple
  rw [toInt_timeArr A hA, toInt_timeArr B hB]
  simp only [bind_eq_ok, pure_eq_ok, Except.ok.injEq, exists_eq_left', asBug_eq_ok, List.map_id, List.append_assoc] at h ⊢
  exact h

/-- Both classes compute the same curve through the same knots, if these cover the time stamps. -/
theorem splinePoints_same {sp : SciPy K} {kind : SplineKind} {T : List K} {k : List (K × K)}
    (hcov : ∃ p q, k.head? = some p ∧ k.getLast? = some q ∧ ∀ τ ∈ T, p.1 ≤ τ ∧ τ ≤ q.1) {r r' : List K × List K}
    (h : splinePoints id sp T k kind = .ok r) (h' : EMD.splinePoints sp kind T k = .ok r') : r = r' := by
  obtain ⟨p, q, hp, hq, hc⟩ := hcov
  have h0 : pyGet (k.map (·.1)) 0 = .ok p.1 := by
    cases k with
    | nil => cases hp
    | cons a k => cases hp; simp [pyGet, pyIdx]
  have hL : pyGet (k.map (·.1)) (-1) = .ok q.1 := by
    have hne : k ≠ [] := by rintro rfl; cases hp
    rw [EMD.pyGet_last _ (by simpa using hne), List.getLast_map]
    rw [List.getLast?_eq_some_getLast hne] at hq
    rw [Option.some.inj hq]
  have hf : T.filter (fun τ => decide (p.1 ≤ τ) && decide (τ ≤ q.1)) = T := by
    rw [List.filter_eq_self]
    intro τ hτ
    simp [hc τ hτ]
  unfold splinePoints at h
  unfold EMD.splinePoints at h'
  simp only [h0, hL, hf, bind, Except.bind, List.map_id] at h h'
  cases kind <;> simp only at h h' <;> first | (rw [h] at h'; exact Except.ok.inj h') | cases h | skip
  split at h
  · next hl => rw [if_pos hl] at h'; rw [h] at h'; exact Except.ok.inj h'
  · next hl =>
    rw [if_neg hl] at h'
    rw [h'] at h
    exact (Except.ok.inj h).symm

/-- The envelopes are the same. -/
theorem extract_same {sp : SciPy K} {M : Cfg K} {E : EMD.Cfg K} (hs : SameSettings M E) (hnb : 1 ≤ E.nbsym) {x : List K} (hx : ¬FlatEnds x)
    {up lo : List K} {env : EMD.Envelopes K} (h : extractMaxMinSpline sp M (timeArr x.length) x = .ok (some (up, lo)))
    (h' : EMD.extractMaxMinSpline sp E.detection E.splineKind E.nbsym (timeArr x.length) x = .ok (some env)) :
    up = env.maxEnv ∧ lo = env.minEnv := by
  unfold extractMaxMinSpline at h
  unfold EMD.extractMaxMinSpline at h'
  have hl : (timeArr x.length : List K).length = x.length := EMD.timeArr_length _
  have hE : EMD.findExtrema .simple (timeArr x.length : List K) x = _ := EMD.findExtremaSimple_eq _ x hl
  rw [findExtrema_same hx, hE] at h
  rw [hs.simple, hE] at h'
  simp only [bind, Except.bind] at h h'
  split at h
  · cases h
  · next h3 =>
    rw [if_neg h3] at h'
    have rA : ∀ i ∈ reported isPos isNeg x, i < x.length := fun i hi => EMD.maxima_lt hi
    have rB : ∀ i ∈ reported isNeg isPos x, i < x.length := fun i hi => EMD.minima_lt hi
    obtain ⟨kmax, kmin, hk, g1, g2⟩ := EMD.C21_knots E.nbsym hnb x _ rfl _ hE (by simpa using h3)
    change EMD.preparePoints .simple E.nbsym (timeArr x.length) x _ = _ at hk
    rw [hk] at h'
    rw [hs.convert, hs.nbsym, hs.kind] at h
    match hm : preparePoints id E.nbsym x (timeArr x.length) ((reported isPos isNeg x).map (sAt (timeArr x.length)))
        ((reported isNeg isPos x).map (sAt (timeArr x.length))), h with
    | .error e, h => cases h
    | .ok k, h =>
      have := preparePoints_same E.nbsym x _ _ rA rB hm
      rw [show EMD.preparePointsSimple _ _ _ _ _ = _ from hk] at this
      injection this with this
      subst this
      simp only at h h'
      match h1 : splinePoints id sp (timeArr x.length) kmax E.splineKind, h2 : splinePoints id sp (timeArr x.length) kmin E.splineKind,
        h3 : EMD.splinePoints sp E.splineKind (timeArr x.length) kmax, h4 : EMD.splinePoints sp E.splineKind (timeArr x.length) kmin with
      | .error _, _, _, _ => rw [h1] at h; cases h
      | .ok _, .error _, _, _ => rw [h1, h2] at h; cases h
      | .ok _, .ok _, .error _, _ => rw [h3] at h'; cases h'
      | .ok _, .ok _, .ok _, .error _ => rw [h3, h4] at h'; cases h'
      | .ok _, .ok _, .ok _, .ok _ =>
        rw [h1, h2] at h
        rw [h3, h4] at h'
        cases h
        cases h'
        have e1 := splinePoints_same (g1.covers) h1 h3
        have e2 := splinePoints_same (g2.covers) h2 h4
        exact ⟨by rw [e1], by rw [e2]⟩

/-! ## Sifting -/

theorem bcast_length {f : K → K → K} {a b m : List K} (h : bcast f a b = .ok m) (ha : a.length ≠ 1) : m.length = a.length := by
  unfold bcast at h
  split at h
  · next hl => cases h; simp [hl]
  · split at h
    · simp at ha
    · cases h; simp
    · cases h

theorem bget_ne_one {l : List K} (h : l.length ≠ 1) (i : Nat) : bget l i = l[i]? := by simp [bget, h]

/-- One sifting gives the same. -/
theorem sift_same {sp : SciPy K} {M : Cfg K} {E : EMD.Cfg K} (hs : SameSettings M E) (hnb : 1 ≤ E.nbsym) {x y z m : List K} (hx : ¬FlatEnds x)
    (h1 : x.length ≠ 1) (hm : IsMean sp M (timeArr x.length) x m)
    (hz : bcast (fun a b => a - b) x (m.map (fun v => M.reduceScale * v)) = .ok z)
    (hy : SubtractsMean sp E (timeArr x.length) x y) : z = y := by
  obtain ⟨up, lo, s, he, hsum, rfl⟩ := hm
  obtain ⟨env, he', hyl, hyi⟩ := hy
  obtain ⟨rfl, rfl⟩ := extract_same hs hnb hx he he'
  have hzl := bcast_length hz h1
  apply List.ext_getElem?
  intro i
  by_cases hi : i < x.length
  · obtain ⟨xi, u, l, hxi, hu, hl, hyv⟩ := hyi i hi
    have hb : bget z i = some (z[i]'(by omega)) := by
      rw [bget_ne_one (by omega), List.getElem?_eq_getElem]
    obtain ⟨a, b, ha, hb', hv⟩ := EMD.bcast_bget hz i _ hb
    rw [bget_ne_one h1, hxi] at ha
    obtain rfl := Option.some.inj ha
    obtain ⟨w, hw, rfl⟩ := EMD.bget_map _ _ _ _ hb'
    obtain ⟨w', hw', rfl⟩ := EMD.bget_map _ _ _ _ hw
    obtain ⟨u', l', hu', hl', rfl⟩ := EMD.bcast_bget hsum i _ hw'
    rw [hu] at hu'
    rw [hl] at hl'
    obtain rfl := Option.some.inj hu'
    obtain rfl := Option.some.inj hl'
    rw [hyv, List.getElem?_eq_getElem (by omega), hv, hs.scale, lit_eq]
    norm_num
  · rw [List.getElem?_eq_none (by omega), List.getElem?_eq_none (by omega)]


theorem SiftSeq.next {sp : SciPy K} {E : EMD.Cfg K} {T : List K} {seq : List (List K)} (h : SiftSeq sp E T seq) {j : Nat} {a b : List K}
    (ha : seq.reverse[j]? = some a) (hb : seq.reverse[j + 1]? = some b) : SubtractsMean sp E T a b := by
  induction h with
  | start x => simp at hb
  | @step x y xs h hm ih =>
    rw [List.reverse_cons] at ha hb
    have hj : j + 1 < ((x :: xs).reverse ++ [y]).length := (List.getElem?_eq_some_iff.1 hb).1
    rw [List.length_append, List.length_singleton] at hj
    by_cases hlt : j + 1 < (x :: xs).reverse.length
    · rw [List.getElem?_append_left (by omega)] at ha hb
      exact ih ha hb
    · have he : j + 1 = (x :: xs).reverse.length := by omega
      rw [List.getElem?_append_left (by omega)] at ha
      rw [List.getElem?_append_right (by omega), he] at hb
      simp only [Nat.sub_self, List.getElem?_cons_zero, Option.some.injEq] at hb
      subst hb
      have hj' : j = xs.length := by simpa using he
      subst hj'
      simp at ha
      subst ha
      exact hm

/-- The two classes go through the same proto-IMFs. -/
theorem sifted_same {sp : SciPy K} {M : Cfg K} {E : EMD.Cfg K} (hs : SameSettings M E) (hnb : 1 ≤ E.nbsym) {x c row : List K} {k j : Nat}
    {seq : List (List K)} (hp : SiftPath sp E (timeArr x.length) k x c seq) (hf : ∀ y ∈ seq, ¬FlatEnds y) (h1 : x.length ≠ 1)
    (h : Sifted sp M (timeArr x.length) x j row) (hj : j ≤ k) : seq.reverse[j]? = some row := by
  obtain ⟨p1, p2, p3, p4⟩ := hp
  induction h with
  | zero =>
    rw [← List.head?_eq_getElem?, List.head?_reverse, p4]
  | succ j y m z hy hm hz ih =>
    have hy' := ih (by omega)
    obtain ⟨z', hz'⟩ : ∃ z', seq.reverse[j + 1]? = some z' := ⟨_, List.getElem?_eq_getElem (by simp; omega)⟩
    have hmem : y ∈ seq := List.mem_reverse.1 (List.mem_of_getElem? hy')
    have hl : y.length = x.length := EMD.Spec.SiftSeq.length p1 p4 y hmem
    rw [hz', sift_same hs hnb (hf y hmem) (by omega) (hl ▸ hm) hz (hl ▸ SiftSeq.next p1 hy' hz')]


/-- Envelopes are built only where there are three extrema or more. -/
theorem subtracts_many {sp : SciPy K} {E : EMD.Cfg K} {T x y : List K} (h : SubtractsMean sp E T x y) : ¬EMD.Spec.FewExtrema E T x := by
  rintro ⟨e, he, h2⟩
  obtain ⟨env, henv, -⟩ := h
  unfold EMD.extractMaxMinSpline at henv
  rw [he] at henv
  simp only [bind, Except.bind] at henv
  rw [if_pos (by omega)] at henv
  cases henv

theorem few_short {E : EMD.Cfg K} (hd : E.detection = .simple) {x : List K} (h : x.length ≤ 1) : EMD.Spec.FewExtrema E (timeArr x.length) x := by
  refine ⟨_, by rw [hd]; exact EMD.findExtremaSimple_eq _ x (EMD.timeArr_length _), ?_⟩
  have h1 : reported isPos isNeg x = [] := List.eq_nil_iff_forall_not_mem.2 (fun i hi => by
    have := EMD.reported_lt EMD.isPos_zero EMD.isNeg_zero hi; omega)
  have h2 : reported isNeg isPos x = [] := List.eq_nil_iff_forall_not_mem.2 (fun i hi => by
    have := EMD.reported_lt EMD.isNeg_zero EMD.isPos_zero hi; omega)
  simp [h1, h2]

theorem timeOf_none (S : List K) : timeOf S none = timeArr S.length := by
  simp [timeOf, timeArr, lit_nat]

/-- The settings under which the two classes are compared: `k` siftings per component, both iteration limits above `k`. -/
structure FixeSettings (M : Cfg K) (E : EMD.Cfg K) (k : Nat) : Prop extends SameSettings M E where
  nbsym1 : 1 ≤ E.nbsym
  pos : 1 ≤ k
  fixeM : M.FIXE = k
  fixeE : E.FIXE = k
  limitM : (k : Int) + 1 ≤ M.MAX_ITERATION
  limitM' : (k : Int) + 1 ≤ M.maxIteration
  limitE : (k : Int) < E.MAX_ITERATION

/-- None of the proto-IMFs that `EMD` goes through on its way to the components `imfs` of `S` is flat at both ends. -/
def NoFlatEnds (sp : SciPy K) (E : EMD.Cfg K) (S : List K) (imfs : List (List K)) (k : Nat) : Prop :=
  ∀ (j : Nat) (c x : List K) (seq : List (List K)), imfs[j]? = some c → IsResidue S (imfs.take j) x →
    SiftPath sp E (timeArr S.length) k x c seq → ∀ y ∈ seq, ¬FlatEnds y

theorem row_same {sp : SciPy K} {M : Cfg K} {E : EMD.Cfg K} {S : List K} {T : Option (List K)} {mi mi' : Int} {fuel fuel' k : Nat} {R : Result K}
    {R' : EMD.Result K} (hs : FixeSettings M E k) (hM : emd fuel sp M S none mi = .ok R) (hE : EMD.emdPure fuel' sp E S T mi' = .ok R')
    (hf : NoFlatEnds sp E S R'.imfs k) {i : Nat} {c : List K} (hc : R'.imfs[i]? = some c)
    (hp : (R.IMF.map (·.2)).take i = R'.imfs.take i) (hi : i < R.ends.length) :
    (R.IMF.map (·.2))[i]? = some c ∧ R.ends[i]? ≠ some .trend := by
  obtain ⟨T', hT, hq⟩ := EMD.C09_fixe_exact fuel' sp E S T mi' R' k hs.pos hs.fixeE hs.limitE hE
  obtain rfl := (EMD.prepareTime_cases E hs.simple S T).2 T' hT
  obtain ⟨x, seq, hx, hpath⟩ := hq i c hc
  have hfl := hf i c x seq hc hx hpath
  have hxl : x.length = S.length := hx.1
  rw [← hxl] at hpath
  obtain ⟨p1, p2, p3, p4⟩ := hpath
  have hk := hs.pos
  have hstep : ∀ j a, seq.reverse[j]? = some a → j < k → ¬EMD.Spec.FewExtrema E (timeArr x.length) a := by
    intro j a ha hj
    obtain ⟨b, hb⟩ : ∃ b, seq.reverse[j + 1]? = some b := ⟨_, List.getElem?_eq_getElem (by simp; omega)⟩
    exact subtracts_many (SiftSeq.next p1 ha hb)
  have hstart : seq.reverse[0]? = some x := by rw [← List.head?_eq_getElem?, List.head?_reverse, p4]
  have h1 : x.length ≠ 1 := fun h => hstep 0 x hstart hk (few_short hs.simple (by omega))
  have few : ∀ j a, seq.reverse[j]? = some a → j < k → ¬FewExtrema (timeArr x.length) a := by
    rintro j a ha hj ⟨e, he, h2⟩
    rw [findExtrema_same (hfl a (List.mem_reverse.1 (List.mem_of_getElem? ha)))] at he
    exact hstep j a ha hj ⟨e, by rw [hs.simple]; exact he, h2⟩
  constructor
  · obtain ⟨x', row, j, hx', hrow, hsift, hjk, hj⟩ := C68_fixe k hk hs.fixeM hs.limitM hs.limitM' hM i hi
    rw [hp] at hx'
    obtain rfl := EMD.isResidue_unique hx hx'
    rw [timeOf_none, ← hxl] at hsift hj
    have hr := sifted_same hs.toSameSettings hs.nbsym1 ⟨p1, p2, p3, p4⟩ hfl h1 hsift hjk
    have hjk' : j = k := by
      rcases hj with hj | hj
      · exact hj
      · by_contra hne
        exact few j row hr (by omega) hj
    subst hjk'
    rw [hrow, ← hr, List.getElem?_reverse (by omega), p2, show j + 1 - 1 - j = 0 by omega, ← List.head?_eq_getElem?, p3]
  · intro ht
    obtain ⟨x', s, why, hx', -, -, -, hwhy, hpost⟩ := rounds hM i hi
    rw [hp] at hx'
    obtain rfl := EMD.isResidue_unique hx hx'
    rw [ht] at hwhy
    obtain rfl := Option.some.inj hwhy
    obtain ⟨-, -, e, he, he', h2⟩ := hpost.trend rfl
    rw [timeOf_none, ← hxl] at he
    exact few 0 x hstart hk ⟨e, he, by omega⟩

theorem ends_pos {sp : SciPy K} {cfg : Cfg K} {S : List K} {T : Option (List K)} {mi : Int} {fuel : Nat} {R : Result K}
    (h : emd fuel sp cfg S T mi = .ok R) : 0 < R.ends.length ∧ R.ends.length ≤ (R.IMF.map (·.2)).length ∧
      (mi = -1 → R.ends[R.ends.length - 1]? = some .trend) := by
  obtain ⟨recs, r, res, more, ok⟩ := emd_ok h
  have hl : R.ends.length = recs.length + 1 := by simp [ok.ends]
  refine ⟨by omega, by rw [ok.rows, hl]; simp, ?_⟩
  rintro rfl
  have ht := ok.last.resolve_right (by omega)
  rw [hl, ok.ends]
  simp [ht]

theorem rows_same {sp : SciPy K} {M : Cfg K} {E : EMD.Cfg K} {S : List K} {T : Option (List K)} {mi' : Int} {fuel fuel' k : Nat} {R : Result K}
    {R' : EMD.Result K} (hs : FixeSettings M E k) (hM : emd fuel sp M S none (-1) = .ok R) (hE : EMD.emdPure fuel' sp E S T mi' = .ok R')
    (hf : NoFlatEnds sp E S R'.imfs k) (i : Nat) (hi : i ≤ R'.imfs.length) :
    (R.IMF.map (·.2)).take i = R'.imfs.take i ∧ i < R.ends.length := by
  obtain ⟨e0, e1, e2⟩ := ends_pos hM
  induction i with
  | zero => exact ⟨by simp, e0⟩
  | succ i ih =>
    obtain ⟨h1, h2⟩ := ih (by omega)
    have hc : R'.imfs[i]? = some (R'.imfs[i]'(by omega)) := List.getElem?_eq_getElem (by omega)
    obtain ⟨h3, h4⟩ := row_same hs hM hE hf hc h1 h2
    refine ⟨by rw [List.take_add_one, List.take_add_one, h1, h3, hc], ?_⟩
    by_contra hlt
    have : i = R.ends.length - 1 := by omega
    exact h4 (this ▸ e2 rfl)

/-- **C131**, what holds of it: with the same settings and a fixed number of siftings the list of `EMD_matlab`'s components starts with
the IMFs that `EMD` finds.  Missing: proto-IMFs that are flat at both ends, see `C131_counterexample`; the other stopping rules, which
differ between the classes. -/
theorem C131_partial (fuel fuel' : Nat) (sp : SciPy K) (M : Cfg K) (E : EMD.Cfg K) (k : Nat) (hs : FixeSettings M E k) (S : List K)
    (T : Option (List K)) (mi : Int) (R : Result K) (R' : EMD.Result K) (hM : emd fuel sp M S none (-1) = .ok R)
    (hE : EMD.emdPure fuel' sp E S T mi = .ok R') (hf : NoFlatEnds sp E S R'.imfs k) : R'.imfs <+: R.IMF.map (·.2) := by
  have := (rows_same hs hM hE hf _ (le_refl _)).1
  rw [List.take_length] at this
  exact this ▸ List.take_prefix _ _

theorem mean_many {sp : SciPy K} {M : Cfg K} {T x m : List K} (h : IsMean sp M T x m) : ¬FewExtrema T x := by
  rintro ⟨e, he, h2⟩
  obtain ⟨up, lo, s, hu, -⟩ := h
  unfold extractMaxMinSpline at hu
  rw [he] at hu
  simp only [bind, Except.bind] at hu
  rw [if_pos (by omega)] at hu
  cases hu

theorem sifted_first {sp : SciPy K} {M : Cfg K} {T x z : List K} {j : Nat} (h : Sifted sp M T x j z) : (j = 0 ∧ z = x) ∨ ∃ m, IsMean sp M T x m := by
  induction h with
  | zero => exact .inl ⟨rfl, rfl⟩
  | succ j y m z hy hm hz ih =>
    rcases ih with ⟨-, rfl⟩ | ih
    · exact .inr ⟨m, hm⟩
    · exact .inr ih

/-- What has at most two extrema is not sifted. -/
theorem trend_of_few {sp : SciPy K} {M : Cfg K} {T x : List K} {s : Sift K} {why : SiftEnd} (h : SiftPost sp M T x s why)
    (h1 : 1 ≤ M.MAX_ITERATION) (hx : FewExtrema T x) : why = .trend := by
  by_contra ht
  obtain ⟨g1, g2, g3, g4⟩ := h.other ht h1
  rcases sifted_first g4 with ⟨h0, hi⟩ | ⟨m, hm⟩
  · by_cases hl : why = .lost
    · have := h.lostN hl
      omega
    · exact mean_many (hi ▸ h.mean ht hl h1) hx
  · exact mean_many hm hx

/-- **C131**, complete decompositions: if in addition `EMD` went on until at most two extrema were left, and left more than the
tolerance, then the two classes return the same rows. -/
theorem C131_complete_partial (fuel fuel' : Nat) (sp : SciPy K) (M : Cfg K) (E : EMD.Cfg K) (k : Nat) (hs : FixeSettings M E k) (S : List K)
    (T : Option (List K)) (mi : Int) (R : Result K) (R' : EMD.Result K) (hM : emd fuel sp M S none (-1) = .ok R)
    (hE : EMD.emdPure fuel' sp E S T mi = .ok R') (hf : NoFlatEnds sp E S R'.imfs k)
    (hr : EMD.Spec.FewExtrema E (timeArr S.length) R'.residue) (hv : ¬Vanishes R'.residue) (hr' : ¬FlatEnds R'.residue) :
    R.IMF.map (·.2) = R'.rows := by
  obtain ⟨h1, h2⟩ := rows_same hs hM hE hf _ (le_refl _)
  rw [List.take_length] at h1
  obtain ⟨recs, r, res, more, ok⟩ := emd_ok hM
  have hl : R.ends.length = recs.length + 1 := by simp [ok.ends]
  obtain ⟨x, s, why, hx, hrow, -, -, hwhy, hpost⟩ := rounds hM _ h2
  rw [h1] at hx
  have hres : R'.rows = R'.imfs ++ [R'.residue] ∧ IsResidue S R'.imfs R'.residue := by
    have hl := EMD.emdPure_imfs_length hE
    obtain ⟨T', rds, extNo, -, -, hp, rfl⟩ := EMD.emdPure_post hE
    refine ⟨?_, EMD.isResidue_vsub S _ hl⟩
    rw [EMD.finish_rows, if_neg]
    rw [EMD.allclose0_iff]
    exact hv
  obtain rfl := EMD.isResidue_unique hx hres.2
  have hfew : FewExtrema (timeOf S none) R'.residue := by
    obtain ⟨e, he, h3⟩ := hr
    rw [hs.simple] at he
    exact ⟨e, by rw [timeOf_none, findExtrema_same hr']; exact he, h3⟩
  have h1M : 1 ≤ M.MAX_ITERATION := by have := hs.limitM; omega
  obtain rfl := trend_of_few hpost h1M hfew
  rw [(hpost.trend rfl).2.1] at hrow
  have hlast : R'.imfs.length = recs.length := by
    by_contra hne
    have hlt : R'.imfs.length < recs.length := by omega
    obtain ⟨q, hq⟩ : ∃ q, recs[R'.imfs.length]? = some q := ⟨_, List.getElem?_eq_getElem hlt⟩
    have h3 := (ok.goes _ q hq).1
    rw [ok.ends, List.getElem?_map, List.getElem?_append_left hlt, hq] at hwhy
    exact h3 (Option.some.inj hwhy)
  have hrows : (recs ++ [r]).map (·.s.imf) = R'.imfs ++ [R'.residue] := by
    have h4 : (R.IMF.map (·.2)).take (R'.imfs.length + 1) = R'.imfs ++ [R'.residue] := by
      rw [List.take_add_one, h1, hrow]
      rfl
    rw [← h4, ok.rows, List.take_append_of_le_length (by simp; omega), List.take_of_length_le (by simp; omega)]
  have hzero : res.map (fun v => |v|) = List.replicate res.length 0 := by
    rw [List.eq_replicate_iff]
    refine ⟨by simp, ?_⟩
    intro v hv
    obtain ⟨w, hw, rfl⟩ := List.mem_map.1 hv
    obtain ⟨i, hi, rfl⟩ := List.mem_iff_getElem.1 hw
    have hi' : i < S.length := by rw [← ok.isRes.1]; exact hi
    obtain ⟨a, ha, hb⟩ := ok.isRes.2 i hi'
    obtain ⟨a', ha', hb'⟩ := hres.2.2 i hi'
    rw [ha] at ha'
    obtain rfl := Option.some.inj ha'
    rw [hrows, colSum_concat, List.getD_eq_getElem?_getD, hb', List.getElem?_eq_getElem hi] at hb
    rw [Option.some.inj hb]
    simp
  have hmore : more = false := by
    rw [Bool.eq_false_iff]
    intro hm
    have := ok.isMore.1 hm
    rw [hzero] at this
    simp at this
    linarith
  rw [ok.rows, hrows, hmore, hres.1]
  simp


/-! ## A concrete case -/

instance (x : List K) : Decidable (FlatEnds x) :=
  decidable_of_iff (x[0]? ≠ none ∧ x[0]? = x[1]? ∧ x[x.length - 1]? ≠ none ∧ x[x.length - 2]? = x[x.length - 1]?) (by
    constructor
    · rintro ⟨h1, h2, h3, h4⟩
      obtain ⟨a, ha⟩ := Option.ne_none_iff_exists'.1 h1
      obtain ⟨c, hc⟩ := Option.ne_none_iff_exists'.1 h3
      exact ⟨a, c, ha, by rw [← h2, ha], by rw [h4, hc], hc⟩
    · rintro ⟨a, c, h1, h2, h3, h4⟩
      simp [h1, h2, h3, h4])

/-- Test of the proto-IMFs on the way of `k` siftings from `x`. -/
def pathTest (sp : SciPy K) (E : EMD.Cfg K) (T : List K) : Nat → List K → Bool
  | 0, x => !decide (FlatEnds x)
  | k + 1, x => !decide (FlatEnds x) && match EMD.siftOnce sp E T x with
    | .ok r => pathTest sp E T k r.1
    | .error _ => false

/-- Test of `NoFlatEnds`. -/
def flatTest (sp : SciPy K) (E : EMD.Cfg K) (S : List K) (imfs : List (List K)) (k : Nat) : Bool :=
  (List.range imfs.length).all (fun j => pathTest sp E (timeArr S.length) k (vsub S (sumRows S.length (imfs.take j))))

theorem subtracts_unique {sp : SciPy K} {E : EMD.Cfg K} {T x y z : List K} (h : SubtractsMean sp E T x y) (h' : SubtractsMean sp E T x z) : y = z := by
  obtain ⟨env, h1, h2, h3⟩ := h
  obtain ⟨env', h1', h2', h3'⟩ := h'
  rw [h1] at h1'
  obtain rfl := Option.some.inj (Except.ok.inj h1')
  apply List.ext_getElem?
  intro i
  by_cases hi : i < x.length
  · obtain ⟨xi, u, l, a1, a2, a3, a4⟩ := h3 i hi
    obtain ⟨xi', u', l', b1, b2, b3, b4⟩ := h3' i hi
    rw [a1] at b1
    rw [a2] at b2
    rw [a3] at b3
    cases b1
    cases b2
    cases b3
    rw [a4, b4]
  · rw [List.getElem?_eq_none (by omega), List.getElem?_eq_none (by omega)]

theorem noFlatEnds_of_test {sp : SciPy K} {E : EMD.Cfg K} {S : List K} {imfs : List (List K)} {k : Nat} (hl : ∀ r ∈ imfs, r.length = S.length)
    (h : flatTest sp E S imfs k = true) : NoFlatEnds sp E S imfs k := by
  intro j c x seq hc hx hp y hy
  have hj : j < imfs.length := (List.getElem?_eq_some_iff.1 hc).1
  unfold flatTest at h
  rw [List.all_eq_true] at h
  have ht := h j (List.mem_range.2 hj)
  rw [EMD.isResidue_unique (EMD.isResidue_vsub S (imfs.take j) (fun r hr => hl r (List.mem_of_mem_take hr))) hx] at ht
  obtain ⟨p1, p2, p3, p4⟩ := hp
  have key : ∀ i, i ≤ k → ∀ a, seq.reverse[i]? = some a → pathTest sp E (timeArr S.length) (k - i) a = true := by
    intro i
    induction i with
    | zero =>
      intro _ a ha
      rw [← List.head?_eq_getElem?, List.head?_reverse, p4] at ha
      cases ha
      exact ht
    | succ i ih =>
      intro hi a ha
      obtain ⟨b, hb⟩ : ∃ b, seq.reverse[i]? = some b := ⟨_, List.getElem?_eq_getElem (by simp; omega)⟩
      have h1 := ih (by omega) b hb
      rw [show k - i = (k - (i + 1)) + 1 by omega] at h1
      unfold pathTest at h1
      rw [Bool.and_eq_true] at h1
      have h2 := h1.2
      split at h2
      · next r hr =>
        have := subtracts_unique (EMD.siftOnce_spec (y := r.1) (eMax := r.2.1) (eMin := r.2.2) hr) (SiftSeq.next p1 hb ha)
        rw [this] at h2
        exact h2
      · cases h2
  obtain ⟨i, hi, hiy⟩ := List.mem_iff_getElem.1 (List.mem_reverse.2 hy)
  have hik : i ≤ k := by
    rw [List.length_reverse, p2] at hi
    omega
  have := key i hik y (by rw [List.getElem?_eq_getElem hi, hiy])
  cases hki : k - i with
  | zero =>
    rw [hki] at this
    simpa [pathTest] using this
  | succ m =>
    rw [hki] at this
    unfold pathTest at this
    rw [Bool.and_eq_true] at this
    simpa using this.1

/-- Two siftings per component. -/
def sampleFixe : Cfg ℚ := { Cfg.default with FIXE := 2 }

theorem sampleFixe_same : FixeSettings sampleFixe EMD.sampleFixe 2 where
  convert := rfl
  scale := lit_one
  nbsym := rfl
  kind := rfl
  simple := rfl
  nbsym1 := by decide
  pos := by decide
  fixeM := rfl
  fixeE := rfl
  limitM := by decide
  limitM' := by decide
  limitE := by decide

/-- The hypotheses of both theorems hold for this signal: `EMD` finds two IMFs and leaves a trend, `EMD_matlab` returns three rows. -/
example : ∃ R R', emd 20 linSciPy sampleFixe EMD.sampleS none (-1) = .ok R ∧ EMD.emdPure 20 linSciPy EMD.sampleFixe EMD.sampleS none (-1) = .ok R' ∧
    R'.imfs.length = 2 ∧ R.imfNo = 3 ∧ NoFlatEnds linSciPy EMD.sampleFixe EMD.sampleS R'.imfs 2 ∧
    EMD.Spec.FewExtrema EMD.sampleFixe (timeArr EMD.sampleS.length) R'.residue ∧ ¬Vanishes R'.residue ∧ ¬FlatEnds R'.residue := by
  have h : okWith (fun R' => R'.imfs.length == 2 && flatTest linSciPy EMD.sampleFixe EMD.sampleS R'.imfs 2 &&
      okWith (fun e => decide (e.maxPos.length + e.minPos.length ≤ 2)) (EMD.findExtrema .simple (timeArr EMD.sampleS.length) R'.residue) &&
      !allclose0 R'.residue && !decide (FlatEnds R'.residue)) (EMD.emdPure 20 linSciPy EMD.sampleFixe EMD.sampleS none (-1)) = true := by
    decide +kernel
  have h' : okWith (fun R => R.imfNo == 3) (emd 20 linSciPy sampleFixe EMD.sampleS none (-1)) = true := by decide +kernel
  obtain ⟨R', hR', h⟩ := okWith_iff.1 h
  obtain ⟨R, hR, h'⟩ := okWith_iff.1 h'
  simp only [Bool.and_eq_true, beq_iff_eq, Bool.not_eq_true', decide_eq_false_iff_not] at h h'
  obtain ⟨⟨⟨⟨h1, h2⟩, h3⟩, h4⟩, h5⟩ := h
  obtain ⟨e, he, h3⟩ := okWith_iff.1 h3
  refine ⟨R, R', hR, hR', h1, h', noFlatEnds_of_test (EMD.emdPure_imfs_length hR') h2, ⟨e, he, by simpa using h3⟩, ?_, h5⟩
  rw [← EMD.allclose0_iff, h4]
  simp

/-- **C131 is false for signals that are flat at both ends**: on `1, 1, 3, 0, 2, -1, 4, 1, 1` the first components differ. -/
theorem C131_counterexample : ∃ R R', emd 20 linSciPy sampleFixe [1, 1, 3, 0, 2, -1, 4, 1, 1] none (-1) = .ok R ∧
    EMD.emdPure 20 linSciPy EMD.sampleFixe [1, 1, 3, 0, 2, -1, 4, 1, 1] none (-1) = .ok R' ∧
    (R.IMF.map (·.2)).head? = some [-13 / 16, -41 / 48, 31 / 24, -61 / 48, 23 / 16, -31 / 16, 7 / 4, -5 / 4, -1 / 2] ∧
    R'.imfs.head? = some [-1 / 8, -7 / 8, 9 / 8, -21 / 16, 23 / 16, -31 / 16, 7 / 4, -5 / 4, -1 / 2] := by
  have h : okWith (fun R => (R.IMF.map (·.2)).head? == some [-13 / 16, -41 / 48, 31 / 24, -61 / 48, 23 / 16, -31 / 16, 7 / 4, -5 / 4, -1 / 2])
      (emd 20 linSciPy sampleFixe [1, 1, 3, 0, 2, -1, 4, 1, 1] none (-1)) = true := by decide +kernel
  have h' : okWith (fun R => R.imfs.head? == some [-1 / 8, -7 / 8, 9 / 8, -21 / 16, 23 / 16, -31 / 16, 7 / 4, -5 / 4, -1 / 2])
      (EMD.emdPure 20 linSciPy EMD.sampleFixe [1, 1, 3, 0, 2, -1, 4, 1, 1] none (-1)) = true := by decide +kernel
  obtain ⟨R, hR, h⟩ := okWith_iff.1 h
  obtain ⟨R', hR', h'⟩ := okWith_iff.1 h'
  exact ⟨R, R', hR, hR', by simpa using h, by simpa using h'⟩

/-- **C131 is false for the default stopping rules**: with the default settings the first components differ, for a signal without
repeated samples. -/
theorem C131_default_counterexample : ∃ R R' a b, emd 20 linSciPy Cfg.default EMD.sampleS none (-1) = .ok R ∧
    EMD.emdPure 20 linSciPy EMD.Cfg.default EMD.sampleS none (-1) = .ok R' ∧ (R.IMF.map (·.2)).head? = some a ∧ R'.imfs.head? = some b ∧
    a ≠ b := by
  have h : okWith (fun R => okWith (fun R' => (R.IMF.map (·.2)).head?.isSome && R'.imfs.head?.isSome &&
        decide ((R.IMF.map (·.2)).head? ≠ R'.imfs.head?)) (EMD.emdPure 20 linSciPy EMD.Cfg.default EMD.sampleS none (-1)))
      (emd 20 linSciPy Cfg.default EMD.sampleS none (-1)) = true := by decide +kernel
  obtain ⟨R, hR, h⟩ := okWith_iff.1 h
  obtain ⟨R', hR', h⟩ := okWith_iff.1 h
  simp only [Bool.and_eq_true, decide_eq_true_eq] at h
  obtain ⟨⟨h1, h2⟩, h3⟩ := h
  obtain ⟨a, ha⟩ := Option.isSome_iff_exists.1 h1
  obtain ⟨b, hb⟩ := Option.isSome_iff_exists.1 h2
  refine ⟨R, R', a, b, hR, hR', ha, hb, ?_⟩
  rintro rfl
  exact h3 (by rw [ha, hb])

end Matlab
end PyEMD
