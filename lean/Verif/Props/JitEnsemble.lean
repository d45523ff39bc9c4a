import Verif.Lemmas.External
import Verif.Lemmas.JitTime
import Verif.Props.Jit
import Verif.Props.Scipy
import Verif.Props.Ceemdan
import Verif.Spec.EemdSamples

/-!
# C129, C130: `JitEMD` inside `EEMD` and `CEEMDAN`, and its time arrays
-/

set_option linter.unusedSectionVars false

namespace PyEMD
namespace Jit
open EMD (SplineKind Cfg vaff vaff_length)
open EEMD.Spec (Draw)

variable {K : Type} [Field K] [LinearOrder K] [IsStrictOrderedRing K] [FloorRing K]

/-- Consecutive instants have the same distance `c`. -/
def Equidistant (c : K) (T : List K) : Prop := ∀ (i : Nat) (a b : K), T[i]? = some a → T[i + 1]? = some b → b - a = c

theorem equidistant_range (n : Nat) : Equidistant (1 : K) ((List.range n).map (fun k : Nat => (k : K))) := by
  intro i a b ha hb
  simp only [List.getElem?_map, Option.map_eq_some_iff] at ha hb
  obtain ⟨k, hk, rfl⟩ := ha
  obtain ⟨l, hl, rfl⟩ := hb
  rw [List.getElem?_eq_some_iff] at hk hl
  obtain ⟨_, hk⟩ := hk
  obtain ⟨_, hl⟩ := hl
  rw [List.getElem_range] at hk hl
  subst hk hl
  push_cast
  ring

theorem equidistant_eq {c : K} {T : List K} (h : Equidistant c T) : ∃ b, T = vaff c b ((List.range T.length).map (fun k : Nat => (k : K))) := by
  cases T with
  | nil => exact ⟨0, rfl⟩
  | cons t T =>
    refine ⟨t, ?_⟩
    apply List.ext_getElem
    · simp [vaff]
    · intro i h1 h2
      simp only [vaff, List.map_map, List.getElem_map, List.getElem_range, Function.comp_apply]
      induction i with
      | zero => simp
      | succ i ih =>
        have hi : i < (t :: T).length := by omega
        have e := h i _ _ (List.getElem?_eq_getElem hi) (List.getElem?_eq_getElem h1)
        rw [ih hi (by simpa [vaff] using hi)] at e
        push_cast
        linear_combination e

/-- The interpolators of the model of scipy do not depend on the unit and the origin of time. -/
theorem scipy_timeFree : TimeFreeAll (Scipy.scipy : SciPy K) :=
  have h := Scipy.C98_time (K := K)
  ⟨h.1, h.2.1, h.2.2.2.2.2, h.2.2.2.2.1, h.2.2.2.2.2⟩

/-- **C130.**  With simple detection, the unit and the origin of the time array do not matter to `JitEMD`: `c T + b` with `0 < c` gives the rows that `T`
gives, or the same exception. -/
theorem C130_unit (fuel : Nat) (sp : SciPy K) (hsp : TimeFreeAll sp) (cfg : Cfg K) (hd : cfg.detection = .simple) (S T : List K) (c b : K) (hc : 0 < c)
    (m : Int) : emd fuel sp cfg S (T.map (fun x => c * x + b)) m = emd fuel sp cfg S T m :=
  emd_time hsp hc b cfg hd S T m fuel

/-- **C130**, what holds of it: with simple detection, on every equidistant time array `JitEMD` returns the rows that `EMD` returns for the same arguments,
or the same exception.  Missing: other time arrays, see `C130_counterexample`. -/
theorem C130_equidistant_partial (fuel : Nat) (sp sp' : SciPy K) (hsp : SameScipy sp sp') (ht : TimeFreeAll sp') (cfg : Cfg K)
    (hd : cfg.detection = .simple) (hnb : 1 ≤ cfg.nbsym) (hk : CommonKind cfg.splineKind) (S : List K) (hn : 2 ≤ S.length) (T : List K)
    (hT : T.length = S.length) (c : K) (hc : 0 < c) (hE : Equidistant c T) (m : Int) :
    emd fuel sp' cfg S T m = (EMD.emdPure fuel sp cfg S (some T) m >>= fun R => .ok R.rows) := by
  obtain ⟨b, hb⟩ := equidistant_eq hE
  have h1 : emd fuel sp' cfg S T m = emd fuel sp' cfg S ((List.range S.length).map (fun k : Nat => (k : K))) m := by
    rw [hb, hT]
    exact emd_time ht hc b cfg hd S _ m fuel
  rw [h1, C66_simple fuel sp sp' hsp cfg hd hnb hk S hn m]
  have e : EMD.prepareTime cfg S (some ((List.range S.length).map (fun k : Nat => (k : K)))) = EMD.prepareTime cfg S (some T) := by
    simp [EMD.prepareTime, hd, hT]
  unfold EMD.emdPure EMD.emdRounds
  rw [e]

/-- Without a time array the call is refused. -/
theorem C130_no_time (fuel : Nat) (sp : SciPy K) (o : Obj K) (S : List K) (m : Int) : (Ext.ofJit fuel sp).emd o S none m = (.error .typeError, o) := rfl

/-- Both theorems on a concrete signal, sampled at 5, 5.25, 5.5, ...: two or more rows. -/
example : okWith (fun R => decide (2 ≤ R.length))
      (emd 20 Scipy.scipy EMD.sampleFixe EEMD.sampleS [5, 21 / 4, 11 / 2, 23 / 4, 6, 25 / 4, 13 / 2] (-1)) = true ∧
    emd 20 Scipy.scipy EMD.sampleFixe EEMD.sampleS [5, 21 / 4, 11 / 2, 23 / 4, 6, 25 / 4, 13 / 2] (-1) =
      (EMD.emdPure 20 Scipy.scipy EMD.sampleFixe EEMD.sampleS (some [5, 21 / 4, 11 / 2, 23 / 4, 6, 25 / 4, 13 / 2]) (-1) >>= fun R => .ok R.rows) :=
  ⟨by decide +kernel, C130_equidistant_partial 20 Scipy.scipy Scipy.scipy ⟨rfl, rfl, rfl, rfl, rfl⟩ scipy_timeFree EMD.sampleFixe rfl (by decide)
    (.inr (.inl rfl)) EEMD.sampleS (by decide) [5, 21 / 4, 11 / 2, 23 / 4, 6, 25 / 4, 13 / 2] rfl (1 / 4) (by norm_num) (by
      have : ([5, 21 / 4, 11 / 2, 23 / 4, 6, 25 / 4, 13 / 2] : List ℚ) = vaff (1 / 4) 5 ((List.range 7).map (fun k : Nat => (k : ℚ))) := by decide +kernel
      rw [this]
      intro i a b ha hb
      simp only [vaff, List.getElem?_map, Option.map_eq_some_iff] at ha hb
      obtain ⟨_, ⟨k, hk, rfl⟩, rfl⟩ := ha
      obtain ⟨_, ⟨l, hl, rfl⟩, rfl⟩ := hb
      obtain ⟨_, hk⟩ := List.getElem?_eq_some_iff.1 hk
      obtain ⟨_, hl⟩ := List.getElem?_eq_some_iff.1 hl
      rw [List.getElem_range] at hk hl
      subst hk hl
      push_cast
      ring) (-1)⟩

/-- **C130** fails for other time arrays: with simple detection `EMD` ignores the instants (C12) while `JitEMD` places the knots at them.  On this signal both
return, with different rows. -/
theorem C130_counterexample : ∃ R R' : List (List ℚ), R ≠ R' ∧
    emd 20 Scipy.scipy EMD.sampleFixe EEMD.sampleS [0, 1, 2, 3, 7, 8, 9] (-1) = .ok R ∧
    (EMD.emdPure 20 Scipy.scipy EMD.sampleFixe EEMD.sampleS (some [0, 1, 2, 3, 7, 8, 9]) (-1) >>= fun R => .ok R.rows) = .ok R' := by
  have h : (match emd 20 Scipy.scipy EMD.sampleFixe EEMD.sampleS [0, 1, 2, 3, 7, 8, 9] (-1),
      (EMD.emdPure 20 Scipy.scipy EMD.sampleFixe EEMD.sampleS (some [0, 1, 2, 3, 7, 8, 9]) (-1) >>= fun R => .ok R.rows) with
      | .ok R, .ok R' => R != R'
      | _, _ => false) = true := by decide +kernel
  split at h
  · next R R' h1 h2 => exact ⟨R, R', by simpa using h, h1, h2⟩
  · cases h

end Jit

namespace EEMD
namespace Extern
open EEMD.Spec

section LawFree

variable {α ρ σ : Type} [Add α] [Sub α] [Mul α] [Div α] [Neg α] [LT α] [LE α] [BEq α]
  [DecidableLT α] [DecidableLE α] [NpScalar α]

/-- Passing an `EMD` object as `ext_EMD` is what `EEMD` does by default: the general model with that object has the results, the exceptions and the
attributes of the model of `EEMD` (every component is an array with one axis). -/
theorem C129_default (rng : Rng α ρ) (hs : Sized rng) (fuel : Nat) (sp : SciPy α) (order : List Nat) (o : EEMD.Obj α ρ) (S : List α)
    (T : Option (List α)) (m : Int) :
    (upO o o.emd).eemd rng (.ofEmd fuel sp) order S T m =
      ((o.eemd rng fuel sp order S T m).1.map (List.map .row), upO (o.eemd rng fuel sp order S T m).2 (o.eemd rng fuel sp order S T m).2.emd) := by
  have h : ∀ job, prepare o.cfg S T m = .ok job → Sim fuel sp (.ofEmd fuel sp) (fun (a b : EMD.Obj α) => b = a) job o.cfg.separateTrends := by
    intro job _
    refine ⟨?_, ?_⟩
    · rintro a _ x rfl -
      exact ⟨rfl, rfl⟩
    · intro _ a s hR
      rw [show s = a from hR]
      unfold Ext.ofEmd
      dsimp only
      cases a.getImfsAndTrend with
      | error e => rfl
      | ok r => rfl
  obtain ⟨h1, s', h2, rfl⟩ := eemd_sim (R := fun (a b : EMD.Obj α) => b = a) hs order o o.emd rfl S T m h
  exact Prod.ext h1 h2

/-- A dictionary that has an array with two axes under the key -1 and an array with one axis under another key. -/
def Mixed (d : Dict (List (Arr α))) : Prop :=
  (∃ l, d.lookup (-1) = some l ∧ ∃ b, Arr.block b ∈ l) ∧ ∃ p ∈ d, p.1 ≠ -1 ∧ ∃ x, Arr.row x ∈ p.2

theorem lookup_append (d : Dict (List (Arr α))) (k j : Int) (x : Arr α) :
    (d.append k x).lookup j = if j = k then some ((d.lookup j).getD [] ++ [x]) else d.lookup j := by
  induction d with
  | nil =>
    unfold Dict.append
    by_cases h : j = k
    · subst h; simp
    · rw [if_neg h, List.lookup_cons, beq_eq_false_iff_ne.2 h]
  | cons p d ih =>
    obtain ⟨k', v⟩ := p
    unfold Dict.append
    by_cases hk : k' = k
    · rw [if_pos hk]
      subst hk
      by_cases h : j = k'
      · subst h; simp
      · rw [if_neg h, List.lookup_cons, List.lookup_cons, beq_eq_false_iff_ne.2 h]
    · rw [if_neg hk, List.lookup_cons, List.lookup_cons, ih]
      by_cases h : j = k'
      · subst h
        simp [hk]
      · rw [beq_eq_false_iff_ne.2 h]

theorem mem_append_dict (d : Dict (List (Arr α))) (k : Int) (x : Arr α) :
    (∃ p ∈ d.append k x, p.1 = k ∧ x ∈ p.2) ∧ ∀ p ∈ d, ∃ p' ∈ d.append k x, p'.1 = p.1 ∧ ∀ y ∈ p.2, y ∈ p'.2 := by
  induction d with
  | nil => exact ⟨⟨(k, [x]), by simp [Dict.append], rfl, by simp⟩, by simp⟩
  | cons q d ih =>
    obtain ⟨k', v⟩ := q
    unfold Dict.append
    by_cases hk : k' = k
    · rw [if_pos hk]
      refine ⟨⟨(k', v ++ [x]), by simp, hk, by simp⟩, ?_⟩
      intro p hp
      rcases List.mem_cons.1 hp with rfl | hp
      · exact ⟨(k', v ++ [x]), by simp, rfl, by simp +contextual⟩
      · exact ⟨p, by simp [hp], rfl, fun _ h => h⟩
    · rw [if_neg hk]
      obtain ⟨⟨p, h1, h2, h3⟩, h4⟩ := ih
      refine ⟨⟨p, by simp [h1], h2, h3⟩, ?_⟩
      intro p hp
      rcases List.mem_cons.1 hp with rfl | hp
      · exact ⟨(k', v), by simp, rfl, fun _ h => h⟩
      · obtain ⟨p', h5, h6⟩ := h4 p hp
        exact ⟨p', by simp [h5], h6⟩

theorem Mixed.append {d : Dict (List (Arr α))} (h : Mixed d) (k : Int) (x : Arr α) : Mixed (d.append k x) := by
  obtain ⟨⟨l, h1, b, hb⟩, p, hp, h2, y, hy⟩ := h
  refine ⟨?_, ?_⟩
  · rw [lookup_append]
    by_cases hk : (-1 : Int) = k
    · rw [if_pos hk, h1]
      exact ⟨_, rfl, b, by simp [hb]⟩
    · rw [if_neg hk]
      exact ⟨l, h1, b, hb⟩
  · obtain ⟨p', h3, h4, h5⟩ := (mem_append_dict d k x).2 p hp
    exact ⟨p', h3, by rw [h4]; exact h2, y, h5 _ hy⟩

theorem Mixed.addImfs {d : Dict (List (Arr α))} (h : Mixed d) (i : Nat) (l : List (List α)) : Mixed (addImfs d i l) := by
  induction l generalizing d i with
  | nil => exact h
  | cons x l ih => exact ih (h.append _ _) _

theorem Mixed.addTrial {d : Dict (List (Arr α))} (h : Mixed d) (r : List (List α) × Option (Arr α)) : Mixed (addTrial d r) := by
  unfold Extern.addTrial
  split
  · exact (h.append _ _).addImfs _ _
  · exact h.addImfs _ _

theorem mixed_first (imfs b : List (List α)) (hi : imfs ≠ []) (d : Dict (List (Arr α))) : Mixed (addTrial d (imfs, some (.block b))) := by
  obtain ⟨x, l, rfl⟩ := List.exists_cons_of_ne_nil hi
  unfold Extern.addTrial
  dsimp only
  unfold Extern.addImfs
  refine Mixed.addImfs ?_ _ _
  refine ⟨?_, ?_⟩
  · rw [lookup_append, if_neg (by simp), lookup_append, if_pos rfl]
    exact ⟨_, rfl, b, by simp⟩
  · obtain ⟨p, h1, h2, h3⟩ := (mem_append_dict (d.append (-1) (.block b)) ((0 : Nat) : Int) (.row x)).1
    exact ⟨p, h1, by rw [h2]; simp, x, h3⟩

theorem rowsOf_block {l : List (Arr α)} {b : List (List α)} (h : Arr.block b ∈ l) : rowsOf l = none := by
  induction l with
  | nil => cases h
  | cons y l ih =>
    cases y with
    | block _ => rfl
    | row y =>
      rcases List.mem_cons.1 h with h | h
      · cases h
      · rw [rowsOf, ih h]; rfl

theorem blocksOf_row {l : List (Arr α)} {x : List α} (h : Arr.row x ∈ l) : blocksOf l = none := by
  induction l with
  | nil => cases h
  | cons y l ih =>
    cases y with
    | row _ => rfl
    | block y =>
      rcases List.mem_cons.1 h with h | h
      · cases h
      · rw [blocksOf, ih h]; rfl

theorem meanArr_of_row {n : Nat} {l : List (Arr α)} {x : List α} {y : Arr α} (h : Arr.row x ∈ l) (hm : meanArr n l = .ok y) : ∃ z, y = .row z := by
  unfold meanArr at hm
  rw [blocksOf_row h] at hm
  split at hm
  · injection hm with hm; exact ⟨_, hm.symm⟩
  · cases hm

theorem meanArr_of_block {n : Nat} {l : List (Arr α)} {b : List (List α)} {y : Arr α} (h : Arr.block b ∈ l) (hm : meanArr n l = .ok y) :
    ∃ z, y = .block z := by
  unfold meanArr at hm
  rw [rowsOf_block h] at hm
  dsimp only at hm
  split at hm
  · split at hm
    · injection hm with hm; exact ⟨_, hm.symm⟩
    · cases hm
  · cases hm

theorem mapE_mem {β γ : Type} {f : β → PyM γ} {l : List β} {ys : List γ} (h : CEEMDAN.mapE f l = .ok ys) : ∀ x ∈ l, ∃ y ∈ ys, f x = .ok y := by
  induction l generalizing ys with
  | nil => simp
  | cons a l ih =>
    unfold CEEMDAN.mapE at h
    split at h
    · cases h
    · next y hy =>
      split at h
      · cases h
      · next ys' hys =>
        injection h with h
        subst h
        intro x hx
        rcases List.mem_cons.1 hx with rfl | hx
        · exact ⟨y, by simp, hy⟩
        · obtain ⟨z, hz, h⟩ := ih hys x hx
          exact ⟨z, by simp [hz], h⟩

/-- The means of a mixed dictionary cannot be put into one array. -/
theorem finish_mixed (S : List α) (o : Obj α ρ σ) {d : Dict (List (Arr α))} (h : Mixed d) : ∀ E, (finish S o d).1 ≠ .ok E := by
  obtain ⟨⟨l, h1, b, hb⟩, p, hp, h2, y, hy⟩ := h
  intro E hE
  unfold finish at hE
  dsimp only at hE
  split at hE
  · cases hE
  · next means hm =>
    have hr : renameTrend d = d.filter (fun p => p.1 != -1) ++ [(((d.filter (fun p => p.1 != -1)).length : Int), l)] := by
      unfold renameTrend
      rw [h1]
    rw [hr] at hm
    have m1 := mapE_mem hm p (by
      rw [List.mem_append]; left
      rw [List.mem_filter]
      exact ⟨hp, by simpa using h2⟩)
    have m2 := mapE_mem hm (((d.filter (fun p => p.1 != -1)).length : Int), l) (by simp)
    obtain ⟨z, hz, e1⟩ := m1
    obtain ⟨w, hw, e2⟩ := m2
    obtain ⟨z, rfl⟩ := meanArr_of_row hy e1
    obtain ⟨w, rfl⟩ := meanArr_of_block hb e2
    unfold stackArr at hE
    rw [rowsOf_block hw, blocksOf_row hz] at hE
    cases hE

theorem runTrials_mixed (rng : Rng α ρ) (X : Ext α σ) (cfg : Cfg α) (job : Job α) (n : Nat) (st : TrialState ρ σ) (d : Dict (List (Arr α)))
    (h : Mixed d) : Mixed (runTrials rng X cfg job n st d).2.2 := by
  induction n generalizing st d with
  | zero => exact h
  | succ n ih =>
    unfold runTrials
    split
    · exact h
    · exact ih _ _ (h.addTrial _)

theorem foldl_mixed (rs : List (List (List α) × Option (Arr α))) (d : Dict (List (Arr α))) (h : Mixed d) : Mixed (rs.foldl addTrial d) := by
  induction rs generalizing d with
  | nil => exact h
  | cons r rs ih => exact ih _ (h.addTrial _)

/-- When the first trial of an ensemble gives at least one component and a trend with two axes, `eemd` does not return. -/
theorem eemd_mixed (rng : Rng α ρ) (X : Ext α σ) (order : List Nat) (o : Obj α ρ σ) (S : List α) (T : Option (List α)) (m : Int)
    (ht : 0 < o.cfg.trials) (ho : o.cfg.parallel = true → Schedule o.cfg.trials o.cfg.processes order) {job : Job α}
    (hj : prepare o.cfg S T m = .ok job) {imfs b : List (List α)} (hi : imfs ≠ [])
    (h1 : (trialUpdate rng X o.cfg job { random := o.random, emd := o.emd }).1 = .ok (imfs, some (.block b))) :
    ∀ E, (o.eemd rng X order S T m).1 ≠ .ok E := by
  intro E hE
  unfold Obj.eemd at hE
  rw [hj] at hE
  dsimp only at hE
  obtain ⟨n, hn⟩ := Nat.exists_eq_succ_of_ne_zero (Nat.pos_iff_ne_zero.1 ht)
  have e1 : trialUpdate rng X o.cfg job { random := o.random, emd := o.emd } = (.ok (imfs, some (.block b)),
      (trialUpdate rng X o.cfg job { random := o.random, emd := o.emd }).2) := Prod.ext h1 rfl
  cases hp : o.cfg.parallel with
  | false =>
    rw [hp] at hE
    simp only [Bool.false_eq_true, if_false] at hE
    rw [hn] at hE
    have hm : Mixed (runTrials rng X o.cfg job (n + 1) { random := o.random, emd := o.emd } []).2.2 := by
      unfold runTrials
      rw [e1]
      exact runTrials_mixed _ _ _ _ _ _ _ (mixed_first _ _ hi _)
    match hq : runTrials rng X o.cfg job (n + 1) { random := o.random, emd := o.emd } [] with
    | (.error e, st, d) => rw [hq] at hE; cases hE
    | (.ok (), st, d) =>
      rw [hq] at hE hm
      exact finish_mixed S _ hm E hE
  | true =>
    rw [hp] at hE
    simp only [if_true] at hE
    obtain ⟨hpp, hperm⟩ := ho hp
    have hsz := chunkSize_eq o.cfg.trials o.cfg.processes hpp
    have hc0 := chunkSize_ne_zero hpp ht
    have hcov : ∀ i < (chunkLengths o.cfg.trials (chunkSize o.cfg.trials o.cfg.processes)).length, i ∈ order := by
      intro i hi
      rw [chunkLengths_length _ _ (.inl hc0), hsz] at hi
      exact hperm.mem_iff.2 (List.mem_range.2 hi)
    have hcle := chunkSize_le (trials := o.cfg.trials) hpp
    have hq : 0 < o.cfg.trials / chunkSize o.cfg.trials o.cfg.processes := Nat.div_pos hcle (Nat.pos_of_ne_zero hc0)
    obtain ⟨q, hq⟩ := Nat.exists_eq_succ_of_ne_zero (Nat.pos_iff_ne_zero.1 hq)
    obtain ⟨c, hc⟩ := Nat.exists_eq_succ_of_ne_zero hc0
    have hl : ∃ rest, chunkLengths o.cfg.trials (chunkSize o.cfg.trials o.cfg.processes) = (c + 1) :: rest := by
      unfold chunkLengths
      rw [hq, hc]
      exact ⟨_, rfl⟩
    obtain ⟨rest, hl⟩ := hl
    rcases all_ok_or ((chunkLengths o.cfg.trials (chunkSize o.cfg.trials o.cfg.processes)).map
      (fun n => runChunk rng X o.cfg job n { random := o.random, emd := o.emd })) with ⟨vals, hv⟩ | ⟨e, he⟩
    · have hlen : vals.length = (chunkLengths o.cfg.trials (chunkSize o.cfg.trials o.cfg.processes)).length := by
        have := congrArg List.length hv
        simpa using this.symm
      rw [hv, poolMap_ok vals order (by rw [hlen]; exact hcov)] at hE
      dsimp only at hE
      rw [hl, List.map_cons] at hv
      cases vals with
      | nil => cases hv
      | cons v vals =>
        rw [List.map_cons] at hv
        injection hv with hv _
        unfold runChunk at hv
        rw [e1] at hv
        dsimp only at hv
        split at hv
        · cases hv
        · next rs hrs =>
          injection hv with hv
          subst hv
          rw [List.flatten_cons, List.cons_append, List.foldl_cons] at hE
          exact finish_mixed S _ (foldl_mixed _ _ (mixed_first _ _ hi _)) E hE
    · obtain ⟨e', h2, -⟩ := poolMap_error _ order (by simpa using hcov) e he
      rw [h2] at hE
      cases hE

/-- **C129**, what does not hold of it: with `separate_trends` and `JitEMD` as inner object, `eemd` never returns when the first decomposition has two or
more rows and the last of them does not vanish (some sample exceeds 1e-8 in magnitude).  The trend then has two axes while the components have one.  Here
`x` is the noise of the first trial. -/
theorem C129_separate_trends (rng : Rng α ρ) (fuel : Nat) (sp : SciPy α) (order : List Nat) (o : Obj α ρ (Jit.Obj α)) (S : List α)
    (T : Option (List α)) (m : Int) (hsep : o.cfg.separateTrends = true) (ht : 0 < o.cfg.trials)
    (ho : o.cfg.parallel = true → Schedule o.cfg.trials o.cfg.processes order) (hS : S ≠ []) {T' : List α} (hT : TimeFor S T T') {s : α}
    (hs : ScaleFor o.cfg.noiseWidth S s) {x : List α} {r' : ρ} (hx : Draw rng o.cfg.noiseKind s S.length o.random x r')
    {imfs : List (List α)} {r : List α} (hR : Jit.emd fuel sp o.emd.cfg (vadd S x) T' m = .ok (imfs ++ [r])) (hi : imfs ≠ [])
    (hr : ¬ EMD.Spec.Vanishes r) : ∀ E, (o.eemd rng (.ofJit fuel sp) order S T m).1 ≠ .ok E := by
  have hS0 : S.length ≠ 0 := by simpa using hS
  have hj : prepare o.cfg S T m = .ok { S, T := T', scale := s, maxImf := m } := by
    unfold prepare npMaxE npMinE
    rw [hs]
    cases T with
    | none =>
      rw [show T' = _ from hT]
      simp only [EMD.timeline, if_neg hS0]
      cases S with
      | nil => exact absurd rfl hS
      | cons a S => rfl
    | some t =>
      rw [show T' = t from hT]
      cases S with
      | nil => exact absurd rfl hS
      | cons a S => rfl
  have hg : generateNoise rng o.cfg.noiseKind o.random s S.length = (.ok x, r') := by
    unfold generateNoise
    rcases hx with ⟨h1, h2⟩ | ⟨h1, h2⟩ <;> rw [h1] <;> simp only [h2]
  have e1 : pySlice (imfs ++ [r]) 0 (-1) = imfs := by simp [pySlice, sliceBound]
  have e2 : pySliceFrom (imfs ++ [r]) (-1) = [r] := by simp [pySliceFrom, sliceBound]
  refine eemd_mixed rng _ order o S T m ht ho hj (imfs := imfs) (b := [r]) hi ?_
  unfold trialUpdate
  dsimp only
  rw [hg]
  dsimp only
  unfold Ext.ofJit Jit.Obj.emd
  dsimp only
  rw [hR]
  dsimp only
  rw [hsep, e1, e2]
  have : [r].all allclose0 = false := by
    rw [Bool.eq_false_iff]
    intro h
    exact hr ((EMD.allclose0_iff r).1 (by simpa using h))
  simp only [this, if_true, Bool.false_eq_true, if_false]

end LawFree

section Exact

variable {K ρ : Type} [Field K] [LinearOrder K] [IsStrictOrderedRing K] [FloorRing K]

/-- **C129**, what holds of it: with simple detection and without `separate_trends`, `EEMD` with a `JitEMD` object as `ext_EMD` returns the components that
`EEMD` with the `EMD` object of the same configuration returns, or the same exception, and leaves the generator, the collected components, the mean and the
residue in the same state.  For every signal with two or more samples, every configuration with `nbsym ≥ 1` and a spline kind both know, without a time array or
with any equidistant one; in sequential and parallel mode, whatever the order in which the chunks finish.  Missing: `separate_trends`
(`C129_separate_trends`), other time arrays (`C130_counterexample`), and `CEEMDAN` (`C129_ceemdan`). -/
theorem C129_eemd_partial (rng : Rng K ρ) (hs : Sized rng) (fuel : Nat) (sp sp' : SciPy K) (hsp : Jit.SameScipy sp sp') (ht : Jit.TimeFreeAll sp')
    (order : List Nat) (o : EEMD.Obj K ρ) (j : Jit.Obj K) (hj : j.cfg = o.emd.cfg) (hd : o.emd.cfg.detection = .simple) (hnb : 1 ≤ o.emd.cfg.nbsym)
    (hk : Jit.CommonKind o.emd.cfg.splineKind) (hsep : o.cfg.separateTrends = false) (S : List K) (hn : 2 ≤ S.length) (T : Option (List K))
    (hT : ∀ t, T = some t → t.length = S.length ∧ ∃ c, 0 < c ∧ Jit.Equidistant c t) (m : Int) :
    ((upO o j).eemd rng (.ofJit fuel sp') order S T m).1 = (o.eemd rng fuel sp order S T m).1.map (List.map .row) ∧
    ∃ j', ((upO o j).eemd rng (.ofJit fuel sp') order S T m).2 = upO (o.eemd rng fuel sp order S T m).2 j' ∧
      j'.cfg = (o.eemd rng fuel sp order S T m).2.emd.cfg := by
  refine eemd_sim (R := fun a b => b.cfg = a.cfg ∧ a.cfg = o.emd.cfg) hs order o j ⟨hj, rfl⟩ S T m ?_ |>.imp_right ?_
  · intro job hjob
    have hjS : job.S = S ∧ job.T.length = S.length ∧ ∃ c, 0 < c ∧ Jit.Equidistant c job.T := by
      unfold prepare at hjob
      cases T with
      | none =>
        dsimp only at hjob
        rw [EMD.timeline_ok _ (by omega)] at hjob
        obtain ⟨t', ht', hjob⟩ := bind_eq_ok.1 hjob
        cases ht'
        obtain ⟨mx, -, hjob⟩ := bind_eq_ok.1 hjob
        obtain ⟨mn, -, hjob⟩ := bind_eq_ok.1 hjob
        obtain rfl := pure_eq_ok.1 hjob
        exact ⟨rfl, by simp, 1, one_pos, Jit.equidistant_range _⟩
      | some t =>
        dsimp only at hjob
        obtain ⟨t', ht', hjob⟩ := bind_eq_ok.1 hjob
        cases ht'
        obtain ⟨mx, -, hjob⟩ := bind_eq_ok.1 hjob
        obtain ⟨mn, -, hjob⟩ := bind_eq_ok.1 hjob
        obtain rfl := pure_eq_ok.1 hjob
        exact ⟨rfl, hT t rfl⟩
    obtain ⟨h1, h2, c, hc, h3⟩ := hjS
    refine ⟨?_, by simp [hsep]⟩
    rintro a b x ⟨hb, ha⟩ hx
    have key := Jit.C130_equidistant_partial fuel sp sp' hsp ht b.cfg (by rw [hb, ha]; exact hd) (by rw [hb, ha]; exact hnb) (by rw [hb, ha]; exact hk) x
      (by rw [hx, h1]; exact hn) job.T (by rw [h2, hx, h1]) c hc h3 job.maxImf
    unfold Ext.ofJit Jit.Obj.emd EMD.Obj.emd
    dsimp only
    rw [key, hb]
    cases EMD.emdPure fuel sp a.cfg x (some job.T) job.maxImf with
    | error e => exact ⟨rfl, hb, ha⟩
    | ok r => exact ⟨rfl, rfl, ha⟩
  · rintro ⟨j', h1, h2, -⟩
    exact ⟨j', h1, h2⟩

end Exact

/-! ## Examples -/

/-- The configuration of the samples inside an `EEMD` object, with `JitEMD`. -/
def sampleJit : Jit.Obj ℚ := .new EMD.sampleFixe

/-- C129 on a concrete signal, with the interpolators of the model of scipy: three trials, two or more components. -/
example : okWith (fun E => decide (2 ≤ E.length))
      ((upO (sampleObj sampleCfg) sampleJit).eemd sampleRng (.ofJit 20 Scipy.scipy) [] sampleS none (-1)).1 = true ∧
    ((upO (sampleObj sampleCfg) sampleJit).eemd sampleRng (.ofJit 20 Scipy.scipy) [] sampleS none (-1)).1 =
      ((sampleObj sampleCfg).eemd sampleRng 20 Scipy.scipy [] sampleS none (-1)).1.map (List.map .row) :=
  ⟨by decide +kernel, (C129_eemd_partial sampleRng sampleRng_sized 20 Scipy.scipy Scipy.scipy ⟨rfl, rfl, rfl, rfl, rfl⟩ Jit.scipy_timeFree []
    (sampleObj sampleCfg) sampleJit rfl rfl (by decide) (.inr (.inl rfl)) rfl sampleS (by decide) none (by simp) (-1)).1⟩

/-- **C129** fails with `separate_trends`: on this signal `EEMD` with `JitEMD` raises `ValueError`, with `EMD` it returns. -/
theorem C129_counterexample :
    ((upO (sampleObj { sampleCfg with separateTrends := true }) sampleJit).eemd sampleRng (.ofJit 20 Scipy.scipy) [] sampleS none (-1)).1 =
        .error .valueError ∧
      ∃ E, 2 ≤ E.length ∧ ((sampleObj { sampleCfg with separateTrends := true }).eemd sampleRng 20 Scipy.scipy [] sampleS none (-1)).1 = .ok E := by
  refine ⟨errIs_iff.1 (by decide +kernel), ?_⟩
  have : okWith (fun E => decide (2 ≤ E.length))
      ((sampleObj { sampleCfg with separateTrends := true }).eemd sampleRng 20 Scipy.scipy [] sampleS none (-1)).1 = true := by decide +kernel
  obtain ⟨E, h1, h2⟩ := okWith_iff.1 this
  exact ⟨E, by simpa using h2, h1⟩

/-- Less noise, separated trends, two processes. -/
def sampleSep : Cfg ℚ := { sampleCfg with noiseWidth := 1 / 20, separateTrends := true, parallel := true, processes := 2 }

/-- The hypotheses of `C129_separate_trends` on that signal: the noise of the first trial, and a decomposition with two or more rows whose last one does
not vanish; so the ensemble does not return, in parallel mode as well. -/
example : ∀ E, ((upO (sampleObj sampleSep) sampleJit).eemd sampleRng
    (.ofJit 20 Scipy.scipy) [1, 0, 2] sampleS none (-1)).1 ≠ .ok E := by
  have h : okWith (fun R => decide (2 ≤ R.length) && !(allclose0 (R.getLast?.getD [])))
      (Jit.emd 20 Scipy.scipy EMD.sampleFixe (vadd sampleS (sampleRng.normal 1 ((1 / 20) * pyAbs (npMax sampleS - npMin sampleS)) 7).1)
        ((List.range 7).map (fun k : Nat => lit (k : ℚ))) (-1)) = true := by decide +kernel
  obtain ⟨R, h1, h2⟩ := okWith_iff.1 h
  rw [Bool.and_eq_true, decide_eq_true_eq] at h2
  have hR : R ≠ [] := by rintro rfl; simp at h2
  rw [← List.dropLast_append_getLast hR] at h1
  refine C129_separate_trends sampleRng 20 Scipy.scipy [1, 0, 2] _ sampleS none (-1) rfl (by decide) (fun _ => ⟨by decide, ?_⟩) (by decide) rfl rfl
    (.inl ⟨rfl, rfl⟩) (imfs := R.dropLast) (r := R.getLast hR) h1 ?_ ?_
  · exact .swap _ _ _
  · intro h
    have := congrArg List.length h
    rw [List.length_dropLast, List.length_nil] at this
    omega
  · rw [← EMD.allclose0_iff]
    simpa [List.getLast?_eq_some_getLast hR] using h2.2

end Extern
end EEMD

namespace CEEMDAN
namespace Extern
open EEMD.Spec

variable {α ρ : Type} [Add α] [Sub α] [Mul α] [Div α] [Neg α] [LT α] [LE α] [BEq α]
  [DecidableLT α] [DecidableLE α] [NpScalar α]

theorem noiseRows_jit (fuel : Nat) (sp : SciPy α) (j : Jit.Obj α) (x : List (List α)) :
    (noiseRows (.ofJit fuel sp) j x).1 = if x = [] then .ok [] else .error .typeError := by
  cases x with
  | nil => rfl
  | cons a x => rfl

/-- **C129**, what does not hold of it: `CEEMDAN` with a `JitEMD` object as `ext_EMD` raises `TypeError` for every signal, every number of trials from one on
and every kind of noise, sequentially and in parallel.  The decomposition of the noise is called without a time array. -/
theorem C129_ceemdan (rng : Rng α ρ) (std : List α → α) (fuel : Nat) (sp : SciPy α) (order : List Nat) (cfg : Cfg α) (random : ρ) (j : Jit.Obj α)
    (S : List α) (hstd : (std S == lit 0) = false) (ht : 0 < cfg.trials) (hk : cfg.noiseKind ≠ .unknown)
    (ho : cfg.parallel = true → Schedule cfg.trials cfg.processes order) :
    decomposed rng std (.ofJit fuel sp) order cfg random j S = .error .typeError := by
  unfold decomposed
  rw [hstd]
  simp only [Bool.false_eq_true, if_false]
  have hx : ∃ x r', noises rng cfg random S.length = (.ok x, r') ∧ x.length = cfg.trials := by
    unfold noises EEMD.generateNoise
    cases hkk : cfg.noiseKind with
    | normal => exact ⟨_, _, rfl, length_reshape _ _ _⟩
    | uniform => exact ⟨_, _, rfl, length_reshape _ _ _⟩
    | unknown => exact absurd hkk hk
  obtain ⟨x, r', h1, h2⟩ := hx
  rw [h1]
  dsimp only
  have hne : x ≠ [] := by rintro rfl; simp at h2; omega
  cases hp : cfg.parallel with
  | false =>
    simp only [Bool.false_eq_true, if_false]
    rw [noiseRows_jit, if_neg hne]
  | true =>
    simp only [if_true]
    obtain ⟨hpp, hperm⟩ := ho hp
    have hc0 := EEMD.chunkSize_ne_zero hpp ht
    have hflat := flatten_pieces (EEMD.chunkLengths cfg.trials (EEMD.chunkSize cfg.trials cfg.processes)) x
      (by rw [EEMD.chunkLengths_sum _ _ (.inl hc0), h2])
    have hcov : ∀ i < (pieces (EEMD.chunkLengths cfg.trials (EEMD.chunkSize cfg.trials cfg.processes)) x).length, i ∈ order := by
      intro i hi
      rw [length_pieces, EEMD.chunkLengths_length _ _ (.inl hc0), EEMD.chunkSize_eq _ _ hpp] at hi
      exact hperm.mem_iff.2 (List.mem_range.2 hi)
    generalize pieces (EEMD.chunkLengths cfg.trials (EEMD.chunkSize cfg.trials cfg.processes)) x = ls at hflat hcov
    have he : .error .typeError ∈ ls.map (fun chunk => (noiseRows (.ofJit fuel sp) j chunk).1) := by
      have : ∃ l ∈ ls, l ≠ [] := by
        by_contra hcon
        push Not at hcon
        exact hne (by rw [← hflat]; exact List.flatten_eq_nil_iff.2 hcon)
      obtain ⟨l, hl, hl0⟩ := this
      exact List.mem_map.2 ⟨l, hl, by rw [noiseRows_jit, if_neg hl0]⟩
    obtain ⟨e', h3, h4⟩ := EEMD.poolMap_error _ order (by simpa using hcov) _ he
    rw [h3]
    obtain ⟨l, -, hl⟩ := List.mem_map.1 h4
    rw [noiseRows_jit] at hl
    split at hl
    · cases hl
    · exact hl.symm ▸ rfl

/-- A signal with three trials; with `EMD` the same noise is decomposed. -/
example : decomposed EEMD.sampleRng sampleStd (.ofJit 20 Scipy.scipy) [] sampleCfg 1 (.new EMD.sampleFixe) EEMD.sampleS = .error .typeError ∧
    okWith (fun l => decide (l.length = 3))
      (decomposed EEMD.sampleRng sampleStd (.ofEmd 20 Scipy.scipy) [] sampleCfg 1 ⟨EMD.sampleFixe, none, none⟩ EEMD.sampleS) = true :=
  ⟨C129_ceemdan _ _ _ _ _ _ _ _ _ (by decide +kernel) (by decide) (by decide) (by simp [sampleCfg]), by decide +kernel⟩

end Extern
end CEEMDAN
end PyEMD
