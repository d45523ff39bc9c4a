import Verif.Props.EmdLoop

/-!
# C83: a limit on the number of components only truncates the decomposition
-/

set_option linter.unusedSectionVars false

namespace PyEMD
namespace EMD
open Spec

variable {α : Type} [Add α] [Sub α] [Mul α] [Div α] [Neg α] [LT α] [LE α] [BEq α]
  [DecidableLT α] [DecidableLE α] [NpScalar α]

/-- What `extNo` says after at least one subtraction: with `FIXE` it is above two, otherwise it is the number of extrema of the
proto-IMF. -/
def ExtNoOk (cfg : Cfg α) (T : List α) (s : Sift α) : Prop :=
  (cfg.FIXE ≠ 0 ∧ 2 < s.extNo) ∨ (cfg.FIXE = 0 ∧ ∃ z, countExt cfg T s.imf = .ok (s.extNo, z))

theorem siftLoop_extNo {sp : SciPy α} {cfg : Cfg α} {T : List α} (fuel : Nat) {s s' : Sift α} {why : SiftEnd}
    (hi : s.n = 0 ∨ (1 ≤ s.n ∧ ExtNoOk cfg T s)) (h : siftLoop sp cfg T fuel s = .ok (s', why)) (hw : why ≠ .trend) :
    cfg.MAX_ITERATION ≤ 1 ∨ ExtNoOk cfg T s' := by
  induction fuel generalizing s with
  | zero => simp [siftLoop] at h
  | succ fuel ih =>
    rw [siftLoop, bind_eq_ok] at h
    obtain ⟨r, hr, h⟩ := h
    rcases siftBody_inv hr with ⟨h1, rfl⟩ | ⟨h1, e, z, hc, ⟨he, rfl⟩ | ⟨he, imf, eMax, eMin, hs, h2⟩⟩
    · dsimp only at h
      rw [pure_eq_ok, Prod.mk.injEq] at h
      obtain ⟨rfl, rfl⟩ := h
      rcases hi with hi | ⟨_, hi⟩
      · left; omega
      · right; exact hi
    · dsimp only at h
      rw [pure_eq_ok, Prod.mk.injEq] at h
      exact absurd h.2.symm hw
    · have hn1 : 1 ≤ s.n + 1 := by rcases hi with hi | ⟨hi, _⟩ <;> omega
      clear hi hr hs
      rcases h2 with ⟨hF, -, rfl⟩ | ⟨hF, -, rfl⟩ | ⟨hF, -, e', z', hc', h3⟩ | ⟨hF, -, e', z', f1, hc', -, h3⟩
      · dsimp only at h; rw [pure_eq_ok, Prod.mk.injEq] at h
        obtain ⟨rfl, rfl⟩ := h
        exact .inr (.inl ⟨hF, he⟩)
      · dsimp only at h
        refine ih (s := _) ?_ h
        exact .inr ⟨hn1, .inl ⟨hF, he⟩⟩
      · rcases h3 with ⟨-, rfl⟩ | ⟨-, nh, -, ⟨-, rfl⟩ | ⟨-, rfl⟩⟩
        · dsimp only at h
          refine ih (s := _) ?_ h
          exact .inr ⟨hn1, .inr ⟨hF, z', hc'⟩⟩
        · dsimp only at h; rw [pure_eq_ok, Prod.mk.injEq] at h
          obtain ⟨rfl, rfl⟩ := h
          exact .inr (.inr ⟨hF, z', hc'⟩)
        · dsimp only at h
          refine ih (s := _) ?_ h
          exact .inr ⟨hn1, .inr ⟨hF, z', hc'⟩⟩
      · rcases h3 with ⟨-, -, rfl⟩ | ⟨-, rfl⟩
        · dsimp only at h; rw [pure_eq_ok, Prod.mk.injEq] at h
          obtain ⟨rfl, rfl⟩ := h
          exact .inr (.inr ⟨hF, z', hc'⟩)
        · dsimp only at h
          refine ih (s := _) ?_ h
          exact .inr ⟨hn1, .inr ⟨hF, z', hc'⟩⟩

/-- The outer loop only adds rounds, at least one. -/
theorem emdLoop_extends {sp : SciPy α} {cfg : Cfg α} {T S : List α} {m : Int} (fuel : Nat) {rounds rs : List (Round α)}
    {e e1 : Int} (h : emdLoop sp cfg T S m fuel rounds e = .ok (rs, e1)) : ∃ r t, rs = rounds ++ r :: t := by
  induction fuel generalizing rounds e with
  | zero => simp [emdLoop] at h
  | succ fuel ih =>
    rw [emdLoop, bind_eq_ok] at h
    obtain ⟨⟨s', why'⟩, hr', h⟩ := h
    dsimp only at h
    rw [bind_eq_ok] at h
    obtain ⟨fin', hfin', h⟩ := h
    split at h
    · rw [pure_eq_ok, Prod.mk.injEq] at h; exact ⟨_, [], h.1.symm⟩
    · obtain ⟨r, t, ht⟩ := ih h
      exact ⟨_, _, by rw [ht, List.append_assoc]; rfl⟩

/-- The loop with limit `k` does the first `k` rounds of the loop with a larger limit or none. -/
theorem emdLoop_trunc {sp : SciPy α} {cfg : Cfg α} {T S : List α} {m : Int} {k : Nat} (hm : m ≤ 0 ∨ (k : Int) ≤ m)
    (fuel fuel' : Nat) {rounds rs : List (Round α)} {e e1 : Int} (hl : rounds.length < k) (hf : k - rounds.length ≤ fuel')
    (h : emdLoop sp cfg T S m fuel rounds e = .ok (rs, e1)) :
    ∃ e2, emdLoop sp cfg T S k fuel' rounds e = .ok (rs.take k, e2) ∧ (rs.length ≤ k → e2 = e1) ∧
      (k < rs.length → cfg.MAX_ITERATION ≤ 1 ∨
        ∃ (r : Round α) (s : Sift α), rs[k - 1]? = some r ∧ r.imf = s.imf ∧ s.extNo = e2 ∧ ExtNoOk cfg T s) := by
  induction fuel generalizing rounds e fuel' with
  | zero => simp [emdLoop] at h
  | succ fuel ih =>
    obtain ⟨g, rfl⟩ : ∃ g, fuel' = g + 1 := ⟨fuel' - 1, by omega⟩
    rw [emdLoop, bind_eq_ok] at h
    obtain ⟨⟨s, why⟩, hr, h⟩ := h
    dsimp only at h
    rw [bind_eq_ok] at h
    obtain ⟨fin, hfin, h⟩ := h
    have heq : emdLoop sp cfg T S k (g + 1) rounds e =
        if (fin || decide (((rounds ++ [({ imf := s.imf, why, subs := s.subs, nh := s.nh } : Round α)]).length : Int) = (k : Int)) || why == .trend) = true
        then .ok (rounds ++ [{ imf := s.imf, why, subs := s.subs, nh := s.nh }], s.extNo)
        else emdLoop sp cfg T S k g (rounds ++ [{ imf := s.imf, why, subs := s.subs, nh := s.nh }]) s.extNo := by
      rw [emdLoop, hr]
      show (endCondition _ _ _ >>= _) = _
      rw [hfin]
      rfl
    rw [heq]
    generalize hR : ({ imf := s.imf, why, subs := s.subs, nh := s.nh } : Round α) = R at h heq ⊢
    have hRi : R.imf = s.imf := by rw [← hR]
    by_cases hstop : fin = true ∨ why = .trend
    · have h1 : ∀ x : Int, (fin || decide (((rounds ++ [R]).length : Int) = x) || why == .trend) = true := by
        intro x; rcases hstop with h | h <;> simp [h]
      rw [if_pos (h1 _), pure_eq_ok, Prod.mk.injEq] at h
      obtain ⟨rfl, rfl⟩ := h
      rw [if_pos (h1 _)]
      refine ⟨s.extNo, ?_, fun _ => rfl, fun hc => ?_⟩
      · rw [List.take_of_length_le (by simp; omega)]
      · simp at hc; omega
    · have hs1 : fin = false := by simpa using fun h => hstop (.inl h)
      have hs2 : why ≠ .trend := fun h => hstop (.inr h)
      by_cases hk : rounds.length + 1 = k
      · have h2 : (fin || decide (((rounds ++ [R]).length : Int) = (k : Int)) || why == .trend) = true := by
          have : ((rounds ++ [R]).length : Int) = (k : Int) := by simp; omega
          simp only [this, decide_true, Bool.or_true, Bool.true_or]
        rw [if_pos h2]
        obtain ⟨t, rfl, ht⟩ : ∃ t, rs = (rounds ++ [R]) ++ t ∧ (t = [] → s.extNo = e1) := by
          split at h
          · rw [pure_eq_ok, Prod.mk.injEq] at h; exact ⟨[], by simp [← h.1], fun _ => h.2⟩
          · obtain ⟨r, t, ht⟩ := emdLoop_extends _ h
            exact ⟨_, ht, by simp⟩
        refine ⟨s.extNo, ?_, fun hlen => ?_, fun _ => ?_⟩
        · rw [List.take_left' (by simp [hk])]
        · refine ht (List.length_eq_zero_iff.1 ?_)
          simp at hlen
          omega
        · rcases siftLoop_extNo _ (.inl rfl) hr hs2 with h5 | h5
          · exact .inl h5
          · refine .inr ⟨R, s, ?_, hRi, rfl, h5⟩
            rw [← hk]
            simp
      · have h1 : ∀ x : Int, ((rounds ++ [R]).length : Int) ≠ x → ¬ (fin || decide (((rounds ++ [R]).length : Int) = x) || why == .trend) = true := by
          intro x hx
          simp only [hs1, hx, decide_false, Bool.or_false, Bool.false_or, beq_iff_eq]
          exact hs2
        rw [if_neg (h1 m (by simp; omega))] at h
        rw [if_neg (h1 k (by simp; omega))]
        exact ih g (by simp; omega) (by simp; omega) h

/-- C83 (partial).  If the decomposition with limit `m` (or none, `m ≤ 0`) succeeds, so does the one with a limit `k` that is not
larger, and its components are the first `k` ones -- except that the last of them is left out (and so goes into the residue) when it
has at most two extrema, which can only happen without `FIXE`.  If there are fewer than `k` components, the results are equal.
What is missing from "a limit only truncates" is that exception; see `C83_counterexample`.  Law-free. -/
theorem C83_truncates_partial (fuel fuel' : Nat) (sp : SciPy α) (cfg : Cfg α) (S : List α) (T : Option (List α)) (m : Int) (k : Nat)
    (hk : 1 ≤ k) (hm : m ≤ 0 ∨ (k : Int) ≤ m) (hf : k ≤ fuel') (hM : 2 ≤ cfg.MAX_ITERATION) (R : Result α)
    (h : emdPure fuel sp cfg S T m = .ok R) :
    ∃ R', emdPure fuel' sp cfg S T k = .ok R' ∧ (R.imfs.length < k → R' = R) ∧
      (R'.imfs = R.imfs.take k ∨
        cfg.FIXE = 0 ∧ R'.imfs = R.imfs.take (k - 1) ∧
          ∃ T' c, prepareTime cfg S T = .ok T' ∧ R.imfs[k - 1]? = some c ∧ FewExtrema cfg T' c) := by
  obtain ⟨T', rs, e1, hT, hr, hp, rfl⟩ := emdPure_post h
  have hloop : emdLoop sp cfg T' S m fuel [] (-1) = .ok (rs, e1) := by
    unfold emdRounds at hr
    rw [hT] at hr
    exact hr
  obtain ⟨e2, h1, h2, h3⟩ := emdLoop_trunc hm fuel fuel' (rounds := []) hk (by simpa using hf) hloop
  have hres : emdPure fuel' sp cfg S T k = .ok (finish S ((rs.take k).map (·.imf)) e2) := by
    unfold emdPure emdRounds
    rw [hT]
    show (emdLoop sp cfg T' S k fuel' [] (-1) >>= _) = _
    rw [h1]
    rfl
  refine ⟨_, hres, ?_, ?_⟩
  · intro hlen
    rw [finish_imfs_length, List.length_map] at hlen
    have : rs.length ≤ k := by split at hlen <;> omega
    rw [List.take_of_length_le this, h2 this]
  · by_cases hlen : rs.length ≤ k
    · left
      rw [List.take_of_length_le hlen, h2 hlen, List.take_of_length_le]
      rw [finish_imfs_length, List.length_map]
      split <;> omega
    · have hlen : k < rs.length := by omega
      have hfull : ∀ j ≤ k, (finish S (rs.map (·.imf)) e1).imfs.take j = (rs.take j).map (·.imf) := by
        intro j hj
        have h5 := finish_imfs_length S (rs.map (·.imf)) e1
        rw [(finish_imfs_prefix S (rs.map (·.imf)) e1).1, List.take_take, List.map_take]
        congr 1
        rw [h5, List.length_map]
        split <;> omega
      rcases h3 hlen with h3 | ⟨r, s, hr1, hr2, hr3, hr4⟩
      · omega
      by_cases he : e2 ≤ 2
      · right
        rcases hr4 with ⟨-, h4⟩ | ⟨hF, z, h4⟩
        · omega
        · refine ⟨hF, ?_, T', r.imf, hT, ?_, ?_⟩
          · rw [hfull _ (by omega)]
            unfold finish
            dsimp only
            rw [if_pos he, List.dropLast_eq_take, List.length_map, List.length_take, ← List.map_take, List.take_take]
            congr 2
            omega
          · have h6 : ((finish S (rs.map (·.imf)) e1).imfs.take k)[k - 1]? = ((rs.take k).map (·.imf))[k - 1]? := by
              rw [hfull k le_rfl]
            rw [List.getElem?_take, if_pos (by omega)] at h6
            rw [h6, List.getElem?_map, List.getElem?_take, if_pos (by omega), hr1]
            rfl
          · rw [hr2]
            exact fewExtrema_of_countExt h4 (by omega)
      · left
        rw [hfull k le_rfl]
        unfold finish
        dsimp only
        rw [if_neg he]

/-- C83 with a fixed number of siftings: the limited decomposition has exactly the first `k` components. -/
theorem C83_fixe (fuel fuel' : Nat) (sp : SciPy α) (cfg : Cfg α) (S : List α) (T : Option (List α)) (m : Int) (k : Nat)
    (hk : 1 ≤ k) (hm : m ≤ 0 ∨ (k : Int) ≤ m) (hf : k ≤ fuel') (hM : 2 ≤ cfg.MAX_ITERATION) (hF : cfg.FIXE ≠ 0) (R : Result α)
    (h : emdPure fuel sp cfg S T m = .ok R) :
    ∃ R', emdPure fuel' sp cfg S T k = .ok R' ∧ R'.imfs = R.imfs.take k := by
  obtain ⟨R', h1, -, h2 | ⟨h2, -⟩⟩ := C83_truncates_partial fuel fuel' sp cfg S T m k hk hm hf hM R h
  · exact ⟨R', h1, h2⟩
  · exact absurd h2 hF

/-- Two components without a limit; one with `max_imf = 1`, the same one. -/
example : okWith (fun R => R.imfs.length == 2) (emdPure 20 linSciPy sampleFixe sampleS none (-1)) = true ∧
    okWith (fun R' => okWith (fun R => R'.imfs.length == 1 && R'.imfs == R.imfs.take 1) (emdPure 20 linSciPy sampleFixe sampleS none (-1)))
      (emdPure 1 linSciPy sampleFixe sampleS none (1 : Nat)) = true ∧
    (2 : Int) ≤ sampleFixe.MAX_ITERATION ∧ sampleFixe.FIXE ≠ 0 := by decide +kernel

/-- C83 does not hold without the exception: this signal has one component, but none is returned with `max_imf = 1`.  The settings
are the default ones. -/
theorem C83_counterexample : ∃ R R' : Result ℚ,
    emdPure 5 linSciPy Cfg.default [-2, -4, 5, 2, 3] none (-1) = .ok R ∧
    emdPure 5 linSciPy Cfg.default [-2, -4, 5, 2, 3] none (1 : Nat) = .ok R' ∧
    R.imfs.length = 1 ∧ R'.imfs = [] := by
  have h1 : okWith (fun R => R.imfs.length == 1)
      (emdPure 5 linSciPy (Cfg.default : Cfg ℚ) [-2, -4, 5, 2, 3] none (-1)) = true := by decide +kernel
  have h2 : okWith (fun R => R.imfs == [])
      (emdPure 5 linSciPy (Cfg.default : Cfg ℚ) [-2, -4, 5, 2, 3] none (1 : Nat)) = true := by decide +kernel
  obtain ⟨R, hR, hR'⟩ := okWith_iff.1 h1
  obtain ⟨Q, hQ, hQ'⟩ := okWith_iff.1 h2
  exact ⟨R, Q, hR, hQ, by simpa using hR', by simpa using hQ'⟩

end EMD
end PyEMD
