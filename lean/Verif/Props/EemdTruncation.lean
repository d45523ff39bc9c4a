import Verif.Props.Eemd
import Verif.Props.EemdTotal
import Verif.Props.Truncation

/-!
# A limit on the number of components only cuts the list of `EEMD` off (C142)
-/

set_option linter.unusedSectionVars false

namespace PyEMD
namespace EEMD
open Spec

variable {α ρ : Type} [Add α] [Sub α] [Mul α] [Div α] [Neg α] [LT α] [LE α] [BEq α]
  [DecidableLT α] [DecidableLE α] [NpScalar α]

/-- The results of two trials agree up to the first `j` components; if they differ, both have that many. -/
def AgreeUpTo (j : Nat) (out out' : List (List α) × Option (List α)) : Prop :=
  out' = out ∨ (j ≤ out.1.length ∧ j ≤ out'.1.length ∧ out'.1.take j = out.1.take j)

theorem AgreeUpTo.get {j : Nat} {out out' : List (List α) × Option (List α)} (h : AgreeUpTo j out out') {i : Nat} (hi : i < j) :
    out'.1[i]? = out.1[i]? := by
  rcases h with rfl | ⟨-, -, h⟩
  · rfl
  · have := congrArg (fun l => l[i]?) h
    simpa only [List.getElem?_take, if_pos hi] using this

/-- What C83 says about rows. -/
theorem imfs_cut {fuel : Nat} {sp : SciPy α} {cfg : EMD.Cfg α} {S : List α} {T : Option (List α)} {m : Int} {k j : Nat} (hk : 1 ≤ k)
    (hm : m ≤ 0 ∨ (k : Int) ≤ m) (hf : k ≤ fuel) (hM : 2 ≤ cfg.MAX_ITERATION) (hj : j + (if cfg.FIXE = 0 then 1 else 0) ≤ k) {R R' : EMD.Result α}
    (h : EMD.emdPure fuel sp cfg S T m = .ok R) (h' : EMD.emdPure fuel sp cfg S T k = .ok R') :
    R' = R ∨ (j ≤ R.imfs.length ∧ j ≤ R'.imfs.length ∧ R'.imfs.take j = R.imfs.take j) := by
  obtain ⟨Q, h1, h2, h3⟩ := EMD.C83_truncates_partial fuel fuel sp cfg S T m k hk hm hf hM R h
  obtain rfl : R' = Q := by rw [h'] at h1; exact Except.ok.inj h1
  by_cases hl : R.imfs.length < k
  · exact .inl (h2 hl)
  · right
    rcases h3 with h3 | ⟨hF, h3, -⟩
    · rw [h3, List.take_take, List.length_take]
      have : j ≤ k := by omega
      exact ⟨by omega, by omega, by rw [Nat.min_eq_left this]⟩
    · rw [if_pos hF] at hj
      rw [h3, List.take_take, List.length_take]
      exact ⟨by omega, by omega, by rw [Nat.min_eq_left (by omega)]⟩

theorem rows_prefix {fuel : Nat} {sp : SciPy α} {cfg : EMD.Cfg α} {S : List α} {T : Option (List α)} {m : Int} {R : EMD.Result α}
    (h : EMD.emdPure fuel sp cfg S T m = .ok R) : ∃ x, R.rows = R.imfs ++ x := by
  obtain ⟨T', rs, e1, -, -, -, rfl⟩ := EMD.emdPure_post h
  unfold EMD.finish
  dsimp only
  generalize (if e1 ≤ 2 then (rs.map (·.imf)).dropLast else rs.map (·.imf)) = I
  split
  · exact ⟨[], by simp⟩
  · exact ⟨_, rfl⟩

theorem take_prefix {β : Type} {a b x y : List β} {j : Nat} (ha : j ≤ a.length) (hb : j ≤ b.length) (h : b.take j = a.take j) :
    (b ++ y).take j = (a ++ x).take j := by
  rw [List.take_append_of_le_length ha, List.take_append_of_le_length hb, h]

/-- One trial. -/
theorem trial_cut {fuel : Nat} {sp : SciPy α} {sep : Bool} {cfg : EMD.Cfg α} {S T : List α} {m : Int} {k j : Nat} {noise : List α} (hk : 1 ≤ k)
    (hm : m ≤ 0 ∨ (k : Int) ≤ m) (hf : k ≤ fuel) (hM : 2 ≤ cfg.MAX_ITERATION)
    (hj : j + (if cfg.FIXE = 0 then 1 else 0) + (if sep then 1 else 0) ≤ k) {out out' : List (List α) × Option (List α)}
    (h : TrialOf fuel sp sep cfg S T m noise out) (h' : TrialOf fuel sp sep cfg S T k noise out') : AgreeUpTo j out out' := by
  obtain ⟨R, hR, h0, h1⟩ := h
  obtain ⟨R', hR', h0', h1'⟩ := h'
  cases sep with
  | false =>
    rw [h0 rfl, h0' rfl]
    rcases imfs_cut hk hm hf hM (j := j) (by simpa using hj) hR hR' with rfl | ⟨a, b, c⟩
    · exact .inl rfl
    · obtain ⟨x, hx⟩ := rows_prefix hR
      obtain ⟨y, hy⟩ := rows_prefix hR'
      right
      dsimp only
      rw [hx, hy]
      exact ⟨by simp; omega, by simp; omega, take_prefix a b c⟩
  | true =>
    obtain ⟨i, t, e, rfl⟩ := h1 rfl
    obtain ⟨i', t', e', rfl⟩ := h1' rfl
    rcases imfs_cut hk hm hf hM (j := j + 1) (by rw [if_pos rfl] at hj; omega) hR hR' with rfl | ⟨a, b, c⟩
    · left
      rw [e] at e'
      exact congrArg (fun p => (p.1, some p.2)) (Except.ok.inj e').symm
    · have key : ∀ {I : List (List α)} {res : List α} {l : List (List α)} {tr : List α},
          EMD.Obj.getImfsAndTrend ⟨cfg, some I, some res⟩ = .ok (l, tr) → l = I ∨ l = I.dropLast := by
        intro I res l tr h
        unfold EMD.Obj.getImfsAndTrend EMD.Obj.getImfsAndResidue at h
        simp only [bind, Except.bind] at h
        split at h
        · split at h
          · cases h
          injection h with h
          exact .inr (congrArg Prod.fst h).symm
        · injection h with h
          exact .inl (congrArg Prod.fst h).symm
      have len : ∀ {I l : List (List α)}, l = I ∨ l = I.dropLast → j + 1 ≤ I.length → j ≤ l.length ∧ l.take j = (I.take (j + 1)).take j := by
        rintro I l (rfl | rfl) h
        · exact ⟨by omega, by rw [List.take_take, Nat.min_eq_left (by omega)]⟩
        · refine ⟨by simp; omega, ?_⟩
          rw [List.dropLast_eq_take, List.take_take, List.take_take, Nat.min_eq_left (by omega), Nat.min_eq_left (by omega)]
      obtain ⟨p, q⟩ := len (key e) a
      obtain ⟨p', q'⟩ := len (key e') b
      exact .inr ⟨p, p', by dsimp only; rw [q, q', c]⟩

theorem order_cut {j : Nat} {outs outs' : List (List (List α) × Option (List α))} (h : List.Forall₂ (AgreeUpTo j) outs outs') {i : Nat} (hi : i < j) :
    order (outs'.map (·.1)) i = order (outs.map (·.1)) i := by
  induction h with
  | nil => rfl
  | cons h1 _ ih =>
    unfold order at ih ⊢
    rw [List.map_cons, List.map_cons, List.filterMap_cons, List.filterMap_cons, h1.get hi, ih]

theorem height_cut {j : Nat} {outs outs' : List (List (List α) × Option (List α))} (h : List.Forall₂ (AgreeUpTo j) outs outs') {i : Nat} (hi : i < j) :
    i < height (outs'.map (·.1)) ↔ i < height (outs.map (·.1)) := by
  induction h with
  | nil => rfl
  | @cons a b l l' h1 _ ih =>
    have e : ∀ (c : List (List α)) (cs : List (List (List α))), height (c :: cs) = max c.length (height cs) := fun _ _ => rfl
    rw [List.map_cons, List.map_cons, e, e, lt_max_iff, lt_max_iff, ih]
    have := h1.get hi
    have h2 : i < b.1.length ↔ i < a.1.length := by
      rw [← not_le, ← not_le, ← List.getElem?_eq_none_iff, ← List.getElem?_eq_none_iff, this]
    rw [h2]

theorem dictOf_take {β : Type} (j n : Nat) (D : Nat → β) : (dictOf n D).take j = dictOf (min j n) D := by
  unfold dictOf
  rw [← List.map_take, List.take_range]

theorem dictOf_congr {β : Type} {n : Nat} {D D' : Nat → β} (h : ∀ i < n, D' i = D i) : dictOf n D' = dictOf n D := by
  unfold dictOf
  apply List.map_congr_left
  intro i hi
  rw [h i (List.mem_range.1 hi)]

/-- The collected dictionaries agree up to order `j`. -/
theorem dict_cut {j : Nat} {outs outs' : List (List (List α) × Option (List α))} (h : List.Forall₂ (AgreeUpTo j) outs outs')
    (hs : (∀ r ∈ outs, r.2 = none) ∧ (∀ r ∈ outs', r.2 = none) ∨ (∀ r ∈ outs, r.2.isSome = true) ∧ (∀ r ∈ outs', r.2.isSome = true)) :
    (renameTrend (outs'.foldl addTrial [])).take j = (renameTrend (outs.foldl addTrial [])).take j := by
  have hmin : min j (height (outs'.map (·.1))) = min j (height (outs.map (·.1))) := by
    rcases Nat.lt_or_ge (min j (height (outs'.map (·.1)))) (min j (height (outs.map (·.1)))) with hlt | hge
    · have := (height_cut h (i := height (outs'.map (·.1))) (by omega)).2 (by omega)
      omega
    · rcases Nat.lt_or_ge (min j (height (outs.map (·.1)))) (min j (height (outs'.map (·.1)))) with hlt | hge'
      · have := (height_cut h (i := height (outs.map (·.1))) (by omega)).1 (by omega)
        omega
      · omega
  have hd : (dictOf (height (outs'.map (·.1))) (order (outs'.map (·.1)))).take j = (dictOf (height (outs.map (·.1))) (order (outs.map (·.1)))).take j := by
    rw [dictOf_take, dictOf_take, hmin]
    exact dictOf_congr (fun i hi => order_cut h (by omega))
  rcases hs with ⟨h1, h2⟩ | ⟨h1, h2⟩
  · rw [foldl_addTrial_none _ h1, foldl_addTrial_none _ h2, renameTrend_dictOf, renameTrend_dictOf, hd]
  · by_cases heq : outs' = outs
    · rw [heq]
    · have hne : outs ≠ [] := by rintro rfl; cases h; exact heq rfl
      have hne' : outs' ≠ [] := by rintro rfl; cases h; exact heq rfl
      have hlong : ∃ a ∈ outs, ∃ b ∈ outs', j ≤ a.1.length ∧ j ≤ b.1.length := by
        clear hd hmin h1 h2 hne hne'
        induction h with
        | nil => exact absurd rfl heq
        | @cons a b l l' h1 _ ih =>
          rcases h1 with rfl | ⟨p, q, -⟩
          · obtain ⟨x, hx, y, hy, e⟩ := ih (fun hc => heq (by rw [hc]))
            exact ⟨x, List.mem_cons_of_mem _ hx, y, List.mem_cons_of_mem _ hy, e⟩
          · exact ⟨a, List.mem_cons_self, b, List.mem_cons_self, p, q⟩
      obtain ⟨a, ha, b, hb, p, q⟩ := hlong
      have hh : ∀ {outs : List (List (List α) × Option (List α))} {a : List (List α) × Option (List α)}, a ∈ outs → j ≤ a.1.length →
          j ≤ (dictOf (height (outs.map (·.1))) (order (outs.map (·.1)))).length := by
        intro outs a ha hja
        simp only [dictOf, List.length_map, List.length_range]
        by_contra hc
        have := (lt_height (cs := outs.map (fun x => x.1)) (k := height (outs.map (fun x => x.1)))).2
          ⟨a.1, List.mem_map.2 ⟨a, ha, rfl⟩, by omega⟩
        omega
      rw [foldl_addTrial_some _ hne h1, foldl_addTrial_some _ hne' h2, renameTrend_cons, renameTrend_cons,
        List.take_append_of_le_length (hh ha p), List.take_append_of_le_length (hh hb q), hd]

/-- The noises do not depend on the limit. -/
theorem Ran.noises_limit {rng : Rng α ρ} {fuel : Nat} {sp : SciPy α} {o o' o'' : Obj α ρ} {S : List α} {T : Option (List α)} {m k : Int} {T' T'' : List α} {s s' : α}
    {noises noises' : List (List α)} {outs outs' : List (List (List α) × Option (List α))}
    (h : Ran rng fuel sp o o' S T m T' s noises outs) (h' : Ran rng fuel sp o o'' S T k T'' s' noises' outs') : T'' = T' ∧ noises' = noises := by
  have hs : s' = s := h'.width.trans h.width.symm
  subst hs
  have hn : noises.length = o.cfg.trials := h.trial.length_eq.trans h.count
  have hn' : noises'.length = o.cfg.trials := h'.trial.length_eq.trans h'.count
  refine ⟨?_, ?_⟩
  · have h1 := h.time
    have h2 := h'.time
    unfold TimeFor at h1 h2
    cases T with
    | some t => exact h2.trans h1.symm
    | none => exact h2.trans h1.symm
  · cases hp : o.cfg.parallel with
    | false => exact (Stream.prefix_of (h'.sequential hp) (h.sequential hp) (by omega)).eq_of_length (by omega)
    | true =>
      obtain ⟨-, first, r, h1, h2, h3⟩ := h.parallel hp
      obtain ⟨-, first', r', h1', h2', h3'⟩ := h'.parallel hp
      have hf : first' = first := (Stream.prefix_of h1' h1 (by omega)).eq_of_length (by omega)
      subst hf
      apply List.ext_getElem?
      intro t
      by_cases ht : t < o.cfg.trials
      · rw [h3' t ht, h3 t ht]
      · rw [List.getElem?_eq_none (by omega), List.getElem?_eq_none (by omega)]

/-- **C142, what holds of it.**  Two calls of `eemd` on the same object, one with `max_imf=k`, one with a larger limit or none.  The
first `j` rows returned, and the first `j` entries of `all_imfs` (so also of `ensemble_count` and `ensemble_std`), are the same, where `j`
is `k` -- less one if the number of siftings is not fixed by `FIXE`, less one if trends are separated.  Sequential and parallel mode.
What is missing from "the first `k` rows are the same" are those two rows, see `C142_counterexample` and
`C142_trend_counterexample`.  Law-free. -/
theorem C142_truncates_partial (rng : Rng α ρ) (fuel : Nat) (sp : SciPy α) (sched sched' : List Nat) (o o' o'' : Obj α ρ) (S : List α)
    (T : Option (List α)) (m : Int) (k j : Nat) (hk : 1 ≤ k) (hm : m ≤ 0 ∨ (k : Int) ≤ m) (hf : k ≤ fuel) (hM : 2 ≤ o.emd.cfg.MAX_ITERATION)
    (hj : j + (if o.emd.cfg.FIXE = 0 then 1 else 0) + (if o.cfg.separateTrends then 1 else 0) ≤ k)
    (hord : o.cfg.parallel = true → Schedule o.cfg.trials o.cfg.processes sched)
    (hord' : o.cfg.parallel = true → Schedule o.cfg.trials o.cfg.processes sched') (E E' : List (List α))
    (h : o.eemd rng fuel sp sched S T m = (.ok E, o')) (h' : o.eemd rng fuel sp sched' S T k = (.ok E', o'')) :
    E'.take j = E.take j ∧ o''.allImfs.take j = o'.allImfs.take j := by
  obtain ⟨T1, s1, ns, outs, hr, a1, a2, -⟩ := Obj.eemd_ran hord h
  obtain ⟨T2, s2, ns', outs', hr', b1, b2, -⟩ := Obj.eemd_ran hord' h'
  obtain ⟨rfl, rfl⟩ := Ran.noises_limit hr hr'
  have hag : List.Forall₂ (AgreeUpTo j) outs outs' := by
    rw [List.forall₂_iff_get]
    have l1 := hr.trial.length_eq
    have l2 := hr'.trial.length_eq
    refine ⟨by omega, ?_⟩
    intro i hi hi'
    exact trial_cut hk hm hf hM hj ((List.forall₂_iff_get.1 hr.trial).2 i (by omega) hi) ((List.forall₂_iff_get.1 hr'.trial).2 i (by omega) hi')
  have hd : o''.allImfs.take j = o'.allImfs.take j := by
    rw [a1, b1]
    apply dict_cut hag
    cases hsep : o.cfg.separateTrends with
    | false => exact .inl ⟨hr.none hsep, hr'.none hsep⟩
    | true => exact .inr ⟨hr.some hsep, hr'.some hsep⟩
  refine ⟨?_, hd⟩
  rw [a2, b2]
  unfold ensembleMean
  rw [← List.map_take, ← List.map_take, hd]

/-- The longer sample with noise: three rows without limit; with `max_imf=1` the first row is the same. -/
example : 2 ≤ (sampleObj { sampleCfg with noiseWidth := 1 / 10 }).emd.cfg.MAX_ITERATION ∧ (sampleObj { sampleCfg with noiseWidth := 1 / 10 }).emd.cfg.FIXE ≠ 0 ∧
    okWith (fun E => E.length == 3 && okWith (fun E' => E'.length == 2 && E'.take 1 == E.take 1)
        ((sampleObj { sampleCfg with noiseWidth := 1 / 10 }).eemd sampleRng 20 linSciPy [] EMD.sampleS none (1 : Nat)).1)
      ((sampleObj { sampleCfg with noiseWidth := 1 / 10 }).eemd sampleRng 20 linSciPy [] EMD.sampleS none (-1)).1 = true := by decide +kernel

/-- The same with separated trends: the first of two rows and a trend. -/
example : okWith (fun E => E.length == 3 && okWith (fun E' => E'.length == 3 && E'.take 1 == E.take 1)
        ((sampleObj { sampleCfg with separateTrends := true, noiseWidth := 1 / 10 }).eemd sampleRng 20 linSciPy [] EMD.sampleS none (2 : Nat)).1)
      ((sampleObj { sampleCfg with separateTrends := true, noiseWidth := 1 / 10 }).eemd sampleRng 20 linSciPy [] EMD.sampleS none (-1)).1 = true := by decide +kernel

/-- **C142 is false without `FIXE`**: with the default settings of `EMD` and `max_imf=1` the first row can be another one. -/
theorem C142_counterexample : ∃ E E' : List (List ℚ),
    ({ sampleObj { sampleCfg with noiseWidth := 0 } with emd := ⟨EMD.Cfg.default, none, none⟩ }.eemd sampleRng 20 linSciPy [] [-2, -4, 5, 2, 3] none (-1)).1 = .ok E ∧
    ({ sampleObj { sampleCfg with noiseWidth := 0 } with emd := ⟨EMD.Cfg.default, none, none⟩ }.eemd sampleRng 20 linSciPy [] [-2, -4, 5, 2, 3] none (1 : Nat)).1 = .ok E' ∧
    E.length = 2 ∧ E' = [[-2, -4, 5, 2, 3]] ∧ E'.take 1 ≠ E.take 1 := by
  have h : okWith (fun E => okWith (fun E' => decide (E.length = 2 ∧ E' = [[-2, -4, 5, 2, 3]] ∧ E'.take 1 ≠ E.take 1))
      ({ sampleObj { sampleCfg with noiseWidth := 0 } with emd := ⟨EMD.Cfg.default, none, none⟩ }.eemd sampleRng 20 linSciPy [] [-2, -4, 5, 2, 3] none (1 : Nat)).1)
      ({ sampleObj { sampleCfg with noiseWidth := 0 } with emd := ⟨EMD.Cfg.default, none, none⟩ }.eemd sampleRng 20 linSciPy [] [-2, -4, 5, 2, 3] none (-1)).1 = true := by
    decide +kernel
  obtain ⟨E, h1, h⟩ := okWith_iff.1 h
  obtain ⟨E', h2, h⟩ := okWith_iff.1 h
  obtain ⟨h3, h4, h5⟩ := of_decide_eq_true h
  exact ⟨E, E', h1, h2, h3, h4, h5⟩

/-- A generator whose first draw cancels `EMD.sampleS` up to a billionth. -/
def cancelRng : Rng ℚ Nat where
  normal r _ n := (if r = 1 then EMD.sampleS.map (fun x => -x + 1 / 1000000000 * x) else List.replicate n 0, r + 1)
  uniform r _ _ n := (List.replicate n 0, r)
  seed s := s.toNat

/-- Two trials with separated trends, and a decomposer that does not stop at small signals. -/
def cancelObj : Obj ℚ Nat :=
  { sampleObj { sampleCfg with separateTrends := true, trials := 2 } with
    emd := ⟨{ EMD.sampleFixe with rangeThr := 0, totalPowerThr := 0 }, none, none⟩ }

/-- **C142 is false with separated trends**: a trial whose components are all negligible gives its last component as its trend, and
with a limit this is another one. -/
theorem C142_trend_counterexample : cancelObj.emd.cfg.FIXE ≠ 0 ∧ ∃ E E' : List (List ℚ),
    (cancelObj.eemd cancelRng 20 linSciPy [] EMD.sampleS none (-1)).1 = .ok E ∧
    (cancelObj.eemd cancelRng 20 linSciPy [] EMD.sampleS none (1 : Nat)).1 = .ok E' ∧ E'.take 1 ≠ E.take 1 := by
  have h : okWith (fun E => okWith (fun E' => decide (E'.take 1 ≠ E.take 1))
      (cancelObj.eemd cancelRng 20 linSciPy [] EMD.sampleS none (1 : Nat)).1)
      (cancelObj.eemd cancelRng 20 linSciPy [] EMD.sampleS none (-1)).1 = true := by decide +kernel
  obtain ⟨E, h1, h⟩ := okWith_iff.1 h
  obtain ⟨E', h2, h⟩ := okWith_iff.1 h
  exact ⟨by decide, E, E', h1, h2, of_decide_eq_true h⟩

end EEMD
end PyEMD
