import Verif.Spec.Eemd
import Verif.Lemmas.EmdLoop
import Verif.Lemmas.Exact

/-!
# Lemmas about `EEMD`
-/

set_option linter.unusedSectionVars false

namespace PyEMD
namespace EEMD
open Spec

/-! ## The dictionary of ensembles -/

section Dict
variable {β : Type}

/-- Dictionary with keys `0 .. K-1`. -/
def dictOf (K : Nat) (D : Nat → β) : Dict β := (List.range K).map (fun k : Nat => ((k : Int), D k))

theorem append_cons_ne (k' : Int) (v : List β) (d : Dict (List β)) (k : Int) (x : β) (h : k' ≠ k) :
    Dict.append ((k', v) :: d) k x = (k', v) :: Dict.append d k x := by
  simp [Dict.append, h]

theorem append_append_of_not_mem (d d' : Dict (List β)) (k : Int) (x : β) (h : ∀ p ∈ d, p.1 ≠ k) :
    Dict.append (d ++ d') k x = d ++ Dict.append d' k x := by
  induction d with
  | nil => rfl
  | cons p d ih =>
    obtain ⟨k', v⟩ := p
    rw [List.cons_append, append_cons_ne _ _ _ _ _ (h (k', v) (by simp)), ih (fun q hq => h q (by simp [hq]))]
    rfl

theorem append_dictOf (K : Nat) (D : Nat → List β) (hD : ∀ k, K ≤ k → D k = []) (i : Nat) (hi : i ≤ K) (x : β) :
    Dict.append (dictOf K D) i x = dictOf (max K (i + 1)) (fun k => if k = i then D k ++ [x] else D k) := by
  have hpre : ∀ p ∈ (List.range i).map (fun k : Nat => ((k : Int), D k)), p.1 ≠ (i : Int) := by
    simp only [List.mem_map, List.mem_range]
    rintro _ ⟨k, hk, rfl⟩
    simp only [ne_eq]; omega
  have split : ∀ (N : Nat) (F : Nat → List β), i < N → dictOf N F = (List.range i).map (fun k : Nat => ((k : Int), F k)) ++
      ((i : Int), F i) :: ((List.range (N - i - 1)).map (fun k : Nat => (((i + 1 + k : Nat) : Int), F (i + 1 + k)))) := by
    intro N F h
    unfold dictOf
    conv_lhs => rw [show N = i + (1 + (N - i - 1)) by omega, List.range_add, List.map_append, List.map_map, List.range_add]
    simp [Function.comp_def, Nat.add_assoc]
  rcases Nat.lt_or_ge i K with h | h
  · rw [show max K (i + 1) = K by omega, split K D h, append_append_of_not_mem _ _ _ _ hpre, split K _ h]
    congr 1
    · apply List.map_congr_left
      intro k hk
      have := List.mem_range.1 hk
      simp [show k ≠ i by omega]
    · simp only [Dict.append, if_true]
      congr 1
      apply List.map_congr_left
      intro k _
      simp [show i + 1 + k ≠ i by omega]
  · have : K = i := by omega
    subst this
    rw [show max K (K + 1) = K + 1 by omega, split (K + 1) _ (by omega)]
    have e : dictOf K D = (List.range K).map (fun k : Nat => ((k : Int), D k)) ++ [] := by simp [dictOf]
    rw [e, append_append_of_not_mem _ _ _ _ hpre]
    congr 1
    · apply List.map_congr_left
      intro k hk
      have := List.mem_range.1 hk
      simp [show k ≠ K by omega]
    · simp [Dict.append, hD K (Nat.le_refl _)]

end Dict

variable {α ρ : Type} [Add α] [Sub α] [Mul α] [Div α] [Neg α] [LT α] [LE α] [BEq α]
  [DecidableLT α] [DecidableLE α] [NpScalar α]

theorem addImfs_dictOf (imfs : List (List α)) (K : Nat) (D : Nat → List (List α)) (hD : ∀ k, K ≤ k → D k = []) (i : Nat) (hi : i ≤ K) :
    addImfs (dictOf K D) i imfs =
      dictOf (max K (i + imfs.length)) (fun k => D k ++ (if i ≤ k then (imfs[k - i]?).toList else [])) := by
  induction imfs generalizing K D i with
  | nil =>
    simp only [addImfs, List.length_nil, Nat.add_zero]
    rw [show max K i = K by omega]
    congr 1
    funext k
    split <;> simp
  | cons x imfs ih =>
    simp only [addImfs]
    rw [append_dictOf K D hD i hi x, ih _ _ (fun k hk => by
      rw [if_neg (by omega)]; exact hD k (by omega)) (i + 1) (by omega)]
    rw [List.length_cons, show max (max K (i + 1)) (i + 1 + imfs.length) = max K (i + (imfs.length + 1)) by omega]
    congr 1
    funext k
    rcases Nat.lt_trichotomy k i with h | h | h
    · rw [if_neg (by omega), if_neg (by omega), if_neg (by omega)]
    · subst h
      simp
    · rw [if_neg (by omega), if_pos (by omega), if_pos (by omega), show k - i = (k - (i + 1)) + 1 by omega, List.getElem?_cons_succ]

theorem addImfs_cons (p : Int × List (List α)) (hp : p.1 < 0) (d : Dict (List (List α))) (i : Nat) (imfs : List (List α)) :
    addImfs (p :: d) i imfs = p :: addImfs d i imfs := by
  induction imfs generalizing d i with
  | nil => rfl
  | cons x imfs ih =>
    obtain ⟨k, v⟩ := p
    simp only [addImfs]
    rw [append_cons_ne _ _ _ _ _ (by simp only [] at hp; omega), ih]

/-- Largest number of components. -/
def height (cs : List (List (List α))) : Nat := cs.foldr (fun c m => max c.length m) 0

theorem lt_height {cs : List (List (List α))} {k : Nat} : k < height cs ↔ ∃ c ∈ cs, k < c.length := by
  induction cs with
  | nil => simp [height]
  | cons c cs ih =>
    have e : height (c :: cs) = max c.length (height cs) := rfl
    rw [e, lt_max_iff, ih]
    simp

theorem height_append (cs : List (List (List α))) (c : List (List α)) : height (cs ++ [c]) = max (height cs) c.length := by
  induction cs with
  | nil => simp [height]
  | cons d cs ih =>
    have e : ∀ l, height (d :: l) = max d.length (height l) := fun _ => rfl
    rw [List.cons_append, e, ih, e, max_assoc]

theorem order_append {β : Type} (cs : List (List β)) (c : List β) (k : Nat) : order (cs ++ [c]) k = order cs k ++ (c[k]?).toList := by
  unfold order
  rw [List.filterMap_append]
  cases h : c[k]? <;> simp [List.filterMap, h]

theorem order_eq_nil {cs : List (List (List α))} {k : Nat} (h : height cs ≤ k) : order cs k = [] := by
  unfold order
  rw [List.filterMap_eq_nil_iff]
  intro c hc
  rw [List.getElem?_eq_none_iff]
  by_contra hk
  have := (lt_height (k := k)).2 ⟨c, hc, by omega⟩
  omega

/-- The collected dictionary without trends. -/
theorem foldl_addTrial_none (outs : List (List (List α) × Option (List α))) (h : ∀ r ∈ outs, r.2 = none) :
    outs.foldl addTrial [] = dictOf (height (outs.map (·.1))) (order (outs.map (·.1))) := by
  induction outs using List.reverseRecOn with
  | nil => rfl
  | append_singleton outs r ih =>
    rw [List.foldl_append, ih (fun q hq => h q (by simp [hq]))]
    have hr : r.2 = none := h r (by simp)
    simp only [List.foldl_cons, List.foldl_nil, addTrial, hr]
    rw [addImfs_dictOf _ _ _ (fun k hk => order_eq_nil hk) 0 (Nat.zero_le _)]
    rw [List.map_append, List.map_singleton, height_append, Nat.zero_add]
    congr 1
    funext k
    rw [order_append, if_pos (Nat.zero_le _), Nat.sub_zero]

/-- The collected dictionary with trends. -/
theorem foldl_addTrial_some (outs : List (List (List α) × Option (List α))) (hne : outs ≠ []) (h : ∀ r ∈ outs, r.2.isSome = true) :
    outs.foldl addTrial [] = (-1, outs.filterMap (·.2)) :: dictOf (height (outs.map (·.1))) (order (outs.map (·.1))) := by
  induction outs using List.reverseRecOn with
  | nil => exact absurd rfl hne
  | append_singleton outs r ih =>
    obtain ⟨t, ht⟩ := Option.isSome_iff_exists.1 (h r (by simp))
    rw [List.foldl_append]
    simp only [List.foldl_cons, List.foldl_nil, addTrial, ht]
    by_cases hn : outs = []
    · subst hn
      have e : (Dict.append ([] : Dict (List (List α))) (-1) t) = (-1, [t]) :: dictOf 0 (fun _ => []) := rfl
      simp only [List.foldl_nil]
      rw [e, addImfs_cons _ (by norm_num), addImfs_dictOf _ _ _ (fun _ _ => rfl) 0 (Nat.le_refl _)]
      simp only [List.nil_append, List.map_cons, List.map_nil, List.filterMap_cons, ht, List.filterMap_nil, height, List.foldr_cons,
        List.foldr_nil, Nat.zero_add, Nat.max_zero, Nat.zero_max, Nat.zero_le, if_true, Nat.sub_zero]
      congr 2
    · rw [ih hn (fun q hq => h q (by simp [hq]))]
      simp only [Dict.append, if_true]
      rw [addImfs_cons _ (by norm_num), addImfs_dictOf _ _ _ (fun k hk => order_eq_nil hk) 0 (Nat.zero_le _)]
      rw [List.map_append, List.map_singleton, height_append, Nat.zero_add]
      congr 1
      · simp [ht]
      · congr 1
        funext k
        rw [order_append, if_pos (Nat.zero_le _), Nat.sub_zero]

theorem lookup_dictOf_neg {β : Type} (K : Nat) (D : Nat → β) : (dictOf K D).lookup (-1) = none := by
  rw [List.lookup_eq_none_iff]
  simp only [dictOf, List.mem_map]
  rintro _ ⟨k, _, rfl⟩
  simp only [bne_iff_ne, ne_eq]
  omega

theorem renameTrend_dictOf {β : Type} (K : Nat) (D : Nat → β) : renameTrend (dictOf K D) = dictOf K D := by
  unfold renameTrend
  rw [lookup_dictOf_neg]

theorem renameTrend_cons {β : Type} (v : β) (K : Nat) (D : Nat → β) :
    renameTrend ((-1, v) :: dictOf K D) = dictOf K D ++ [((K : Int), v)] := by
  have e : ((-1, v) :: dictOf K D).filter (fun p => p.1 != -1) = dictOf K D := by
    rw [List.filter_cons_of_neg (by simp), List.filter_eq_self]
    simp only [dictOf, List.mem_map]
    rintro _ ⟨k, _, rfl⟩
    simp only [bne_iff_ne, ne_eq]
    omega
  unfold renameTrend
  rw [show ((-1, v) :: dictOf K D).lookup (-1) = some v by simp [List.lookup]]
  simp only [e]
  simp [dictOf]

/-! ## Trials -/

/-- Outcome of a trial as a function of its noise. -/
def trialOut (fuel : Nat) (sp : SciPy α) (sep : Bool) (ecfg : EMD.Cfg α) (job : Job α) (noise : List α) :
    PyM (List (List α) × Option (List α)) :=
  match EMD.emdPure fuel sp ecfg (vadd job.S noise) (some job.T) job.maxImf with
  | .error e => .error e
  | .ok R =>
    if sep then
      match EMD.Obj.getImfsAndTrend ⟨ecfg, some R.imfs, some R.residue⟩ with
      | .error e => .error e
      | .ok (imfs, trend) => .ok (imfs, some trend)
    else .ok (R.rows, none)

theorem trialOut_ok {fuel : Nat} {sp : SciPy α} {sep : Bool} {ecfg : EMD.Cfg α} {job : Job α} {noise : List α}
    {out : List (List α) × Option (List α)} (h : trialOut fuel sp sep ecfg job noise = .ok out) :
    TrialOf fuel sp sep ecfg job.S job.T job.maxImf noise out := by
  unfold trialOut at h
  cases hR : EMD.emdPure fuel sp ecfg (vadd job.S noise) (some job.T) job.maxImf with
  | error e => rw [hR] at h; cases h
  | ok R =>
    rw [hR] at h
    dsimp only at h
    refine ⟨R, hR, ?_, ?_⟩
    · rintro rfl
      simp only [Bool.false_eq_true, if_false] at h
      injection h with h
      exact h.symm
    · rintro rfl
      simp only [if_true] at h
      cases hT : EMD.Obj.getImfsAndTrend ⟨ecfg, some R.imfs, some R.residue⟩ with
      | error e => rw [hT] at h; cases h
      | ok p =>
        rw [hT] at h
        injection h with h
        exact ⟨p.1, p.2, rfl, h.symm⟩

/-- A trial is a draw followed by a computation that depends on the configuration and the noise only. -/
theorem trialUpdate_eq (rng : Rng α ρ) (fuel : Nat) (sp : SciPy α) (cfg : Cfg α) (job : Job α) (st : TrialState α ρ) :
    ∃ o, o.cfg = st.emd.cfg ∧ trialUpdate rng fuel sp cfg job st =
      (match (generateNoise rng cfg.noiseKind st.random job.scale job.S.length).1 with
        | .error e => .error e
        | .ok noise => trialOut fuel sp cfg.separateTrends st.emd.cfg job noise,
      { random := (generateNoise rng cfg.noiseKind st.random job.scale job.S.length).2, emd := o }) := by
  unfold trialUpdate
  cases hg : generateNoise rng cfg.noiseKind st.random job.scale job.S.length with
  | mk x r =>
    cases x with
    | error e => exact ⟨st.emd, rfl, rfl⟩
    | ok noise =>
      unfold EMD.Obj.emd trialOut
      dsimp only
      cases hR : EMD.emdPure fuel sp st.emd.cfg (vadd job.S noise) (some job.T) job.maxImf with
      | error e => exact ⟨st.emd, rfl, rfl⟩
      | ok R =>
        dsimp only
        refine ⟨{ st.emd with imfs := some R.imfs, residue := some R.residue }, rfl, ?_⟩
        cases cfg.separateTrends with
        | false => rfl
        | true =>
          simp only [if_true]
          have e : EMD.Obj.getImfsAndTrend { st.emd with imfs := some R.imfs, residue := some R.residue } =
            EMD.Obj.getImfsAndTrend ⟨st.emd.cfg, some R.imfs, some R.residue⟩ := rfl
          rw [e]
          cases EMD.Obj.getImfsAndTrend ⟨st.emd.cfg, some R.imfs, some R.residue⟩ <;> rfl

theorem generateNoise_ok {rng : Rng α ρ} {kind : NoiseKind} {r : ρ} {scale : α} {n : Nat} {x : List α}
    (h : (generateNoise rng kind r scale n).1 = .ok x) : Draw rng kind scale n r x (generateNoise rng kind r scale n).2 := by
  unfold generateNoise at h ⊢
  cases kind with
  | normal => injection h with h; exact .inl ⟨rfl, by rw [← h]⟩
  | uniform => injection h with h; exact .inr ⟨rfl, by rw [← h]⟩
  | unknown => cases h

theorem trialUpdate_ok {rng : Rng α ρ} {fuel : Nat} {sp : SciPy α} {cfg : Cfg α} {job : Job α} {st st' : TrialState α ρ}
    {out : List (List α) × Option (List α)} (h : trialUpdate rng fuel sp cfg job st = (.ok out, st')) :
    ∃ noise, Draw rng cfg.noiseKind job.scale job.S.length st.random noise st'.random ∧ st'.emd.cfg = st.emd.cfg ∧
      trialOut fuel sp cfg.separateTrends st.emd.cfg job noise = .ok out := by
  obtain ⟨o, ho, e⟩ := trialUpdate_eq rng fuel sp cfg job st
  rw [e] at h
  obtain ⟨h1, h2⟩ := Prod.mk.inj h
  subst h2
  cases hg : (generateNoise rng cfg.noiseKind st.random job.scale job.S.length).1 with
  | error e => rw [hg] at h1; cases h1
  | ok noise =>
    rw [hg] at h1
    exact ⟨noise, generateNoise_ok hg, ho, h1⟩

/-- The sequential loop. -/
theorem runTrials_ok {rng : Rng α ρ} {fuel : Nat} {sp : SciPy α} {cfg : Cfg α} {job : Job α} (n : Nat) {st st' : TrialState α ρ}
    {d d' : Dict (List (List α))} (h : runTrials rng fuel sp cfg job n st d = (.ok (), st', d')) :
    ∃ noises outs, Stream rng cfg.noiseKind job.scale job.S.length st.random noises st'.random ∧ outs.length = n ∧
      List.Forall₂ (fun x out => trialOut fuel sp cfg.separateTrends st.emd.cfg job x = .ok out) noises outs ∧
      d' = outs.foldl addTrial d ∧ st'.emd.cfg = st.emd.cfg := by
  induction n generalizing st d with
  | zero =>
    unfold runTrials at h
    simp only [Prod.mk.injEq, true_and] at h
    obtain ⟨rfl, rfl⟩ := h
    exact ⟨[], [], .nil _, rfl, .nil, rfl, rfl⟩
  | succ n ih =>
    unfold runTrials at h
    cases ht : trialUpdate rng fuel sp cfg job st with
    | mk x st1 =>
      rw [ht] at h
      cases x with
      | error e => simp at h
      | ok out =>
        obtain ⟨noise, hd, hc, ho⟩ := trialUpdate_ok ht
        obtain ⟨noises, outs, h1, h2, h3, h4, h5⟩ := ih h
        rw [hc] at h3 h5
        exact ⟨noise :: noises, out :: outs, .cons hd h1, by simp [h2], .cons ho h3, h4, h5⟩

/-- One chunk. -/
theorem runChunk_ok {rng : Rng α ρ} {fuel : Nat} {sp : SciPy α} {cfg : Cfg α} {job : Job α} (n : Nat) {st : TrialState α ρ}
    {outs : List (List (List α) × Option (List α))} (h : runChunk rng fuel sp cfg job n st = .ok outs) :
    ∃ noises r', Stream rng cfg.noiseKind job.scale job.S.length st.random noises r' ∧ outs.length = n ∧
      List.Forall₂ (fun x out => trialOut fuel sp cfg.separateTrends st.emd.cfg job x = .ok out) noises outs := by
  induction n generalizing st outs with
  | zero =>
    unfold runChunk at h
    injection h with h
    subst h
    exact ⟨[], _, .nil _, rfl, .nil⟩
  | succ n ih =>
    unfold runChunk at h
    cases ht : trialUpdate rng fuel sp cfg job st with
    | mk x st1 =>
      rw [ht] at h
      cases x with
      | error e => simp at h
      | ok out =>
        dsimp only at h
        cases hr : runChunk rng fuel sp cfg job n st1 with
        | error e => rw [hr] at h; cases h
        | ok rs =>
          rw [hr] at h
          injection h with h
          subst h
          obtain ⟨noise, hd, hc, ho⟩ := trialUpdate_ok ht
          obtain ⟨noises, r', h1, h2, h3⟩ := ih hr
          rw [hc] at h3
          exact ⟨noise :: noises, r', .cons hd h1, by simp [h2], .cons ho h3⟩

theorem Stream.length_of {rng : Rng α ρ} {kind : NoiseKind} {scale : α} {n : Nat} {r r' : ρ} {xs : List (List α)}
    (hs : Sized rng) (h : Stream rng kind scale n r xs r') : ∀ x ∈ xs, x.length = n := by
  induction h with
  | nil => simp
  | cons hd _ ih =>
    intro y hy
    rcases List.mem_cons.1 hy with rfl | hy
    · rcases hd with ⟨-, h⟩ | ⟨-, h⟩
      · exact (congrArg (fun p => p.1.length) h).symm.trans (hs.1 _ _ _)
      · exact (congrArg (fun p => p.1.length) h).symm.trans (hs.2 _ _ _ _)
    · exact ih y hy

/-- Draws are determined by the state. -/
theorem Draw.unique {rng : Rng α ρ} {kind : NoiseKind} {scale : α} {n : Nat} {r r₁ r₂ : ρ} {x y : List α}
    (h : Draw rng kind scale n r x r₁) (h' : Draw rng kind scale n r y r₂) : x = y ∧ r₁ = r₂ := by
  rcases h with ⟨hk, h⟩ | ⟨hk, h⟩ <;> rcases h' with ⟨hk', h'⟩ | ⟨hk', h'⟩
  · rw [h] at h'; exact Prod.mk.inj h'
  · rw [hk] at hk'; cases hk'
  · rw [hk] at hk'; cases hk'
  · rw [h] at h'; exact Prod.mk.inj h'

/-- Two streams from the same state agree as long as both last. -/
theorem Stream.prefix_of {rng : Rng α ρ} {kind : NoiseKind} {scale : α} {n : Nat} {r r₁ r₂ : ρ} {xs ys : List (List α)}
    (h : Stream rng kind scale n r xs r₁) (h' : Stream rng kind scale n r ys r₂) (hl : xs.length ≤ ys.length) : xs <+: ys := by
  induction h generalizing ys with
  | nil => exact List.nil_prefix
  | cons hd _ ih =>
    cases h' with
    | nil => simp at hl
    | cons hd' hs' =>
      obtain ⟨rfl, rfl⟩ := Draw.unique hd hd'
      rw [List.cons_prefix_cons]
      exact ⟨rfl, ih hs' (by simpa using hl)⟩

/-! ## The pool -/

theorem collect_some {β : Type} (results : List (PyM (List β))) (slots : List (List β)) (e : PyErr) (order : List Nat) :
    (collect results slots (some e) order).2 = some e := by
  induction order generalizing slots with
  | nil => rfl
  | cons i order ih =>
    unfold collect
    split
    · simp only [Option.isNone_some, Bool.false_eq_true, if_false]; exact ih _
    · simp only [Option.isNone_some, Bool.false_eq_true, if_false]; exact ih _
    · exact ih _

theorem collect_ok {β : Type} (results : List (PyM (List β))) (vals : List (List β)) (hv : results = vals.map .ok)
    (order : List Nat) (slots : List (List β)) (hl : slots.length = vals.length) :
    ∃ slots', collect results slots none order = (slots', none) ∧ slots'.length = vals.length ∧
      ∀ j, slots'[j]? = if j ∈ order then vals[j]? else slots[j]? := by
  induction order generalizing slots with
  | nil => exact ⟨slots, rfl, hl, by simp⟩
  | cons i order ih =>
    unfold collect
    by_cases hi : i < vals.length
    · have e : results[i]? = some (.ok vals[i]) := by
        rw [hv, List.getElem?_map, List.getElem?_eq_getElem hi]; rfl
      rw [e]
      simp only [Option.isNone_none, if_true]
      obtain ⟨s', h1, h2, h3⟩ := ih (slots.set i vals[i]) (by simpa using hl)
      refine ⟨s', h1, h2, fun j => ?_⟩
      rw [h3]
      by_cases hj : j ∈ order
      · simp [hj]
      · by_cases hij : i = j
        · subst hij
          simp [hj, hl, hi]
        · simp [hj, hij, Ne.symm hij]
    · have e : results[i]? = none := by
        rw [hv, List.getElem?_map, List.getElem?_eq_none (by omega)]; rfl
      rw [e]
      dsimp only
      obtain ⟨s', h1, h2, h3⟩ := ih slots hl
      refine ⟨s', h1, h2, fun j => ?_⟩
      rw [h3]
      by_cases hj : j ∈ order
      · simp [hj]
      · by_cases hij : i = j
        · subst hij
          simp [hj, List.getElem?_eq_none (show vals.length ≤ i by omega), List.getElem?_eq_none (show slots.length ≤ i by omega)]
        · simp [hj, Ne.symm hij]

/-- When every chunk succeeds, `pool.map` returns the concatenation of the chunks in their own order, whatever the order of
completion. -/
theorem poolMap_ok {β : Type} (vals : List (List β)) (order : List Nat) (ho : ∀ i < vals.length, i ∈ order) :
    poolMap (vals.map .ok) order = .ok vals.flatten := by
  obtain ⟨s', h1, h2, h3⟩ := collect_ok (vals.map .ok) vals rfl order (List.replicate (vals.map (Except.ok (ε := PyErr))).length []) (by simp)
  unfold poolMap
  rw [h1]
  have : s' = vals := by
    apply List.ext_getElem?
    intro j
    rw [h3]
    by_cases hj : j < vals.length
    · rw [if_pos (ho j hj)]
    · rw [List.getElem?_eq_none (show vals.length ≤ j by omega)]
      split
      · rfl
      · simp [hj]
  rw [this]

theorem collect_error {β : Type} (results : List (PyM (List β))) (slots : List (List β)) (order : List Nat)
    (i : Nat) (hi : i ∈ order) (e : PyErr) (he : results[i]? = some (.error e)) :
    ∃ e', (collect results slots none order).2 = some e' ∧ .error e' ∈ results := by
  induction order generalizing slots with
  | nil => cases hi
  | cons j order ih =>
    unfold collect
    by_cases hij : j = i
    · subst hij
      rw [he]
      simp only [Option.isNone_none, if_true]
      exact ⟨e, collect_some _ _ _ _, List.mem_of_getElem? he⟩
    · have hi' : i ∈ order := by
        rcases List.mem_cons.1 hi with h | h
        · exact absurd h.symm hij
        · exact h
      split
      · simp only [Option.isNone_none, if_true]; exact ih _ hi'
      · next e1 he1 =>
        simp only [Option.isNone_none, if_true]
        exact ⟨e1, collect_some _ _ _ _, List.mem_of_getElem? he1⟩
      · exact ih _ hi'

/-- When some chunk fails, `pool.map` raises the exception of a failing chunk. -/
theorem poolMap_error {β : Type} (results : List (PyM (List β))) (order : List Nat) (ho : ∀ i < results.length, i ∈ order)
    (e : PyErr) (he : .error e ∈ results) : ∃ e', poolMap results order = .error e' ∧ .error e' ∈ results := by
  obtain ⟨i, hi, h⟩ := List.getElem_of_mem he
  obtain ⟨e', h1, h2⟩ := collect_error results (List.replicate results.length []) order i (ho i hi) e (by rw [List.getElem?_eq_getElem hi, h])
  refine ⟨e', ?_, h2⟩
  unfold poolMap
  cases hc : collect results (List.replicate results.length []) none order with
  | mk s err =>
    rw [hc] at h1
    simp only at h1
    subst h1
    rfl

/-- Either all results are values or one is an exception. -/
theorem all_ok_or {β : Type} (results : List (PyM β)) : (∃ vals : List β, results = vals.map .ok) ∨ ∃ e, .error e ∈ results := by
  induction results with
  | nil => exact .inl ⟨[], rfl⟩
  | cons r results ih =>
    cases r with
    | error e => exact .inr ⟨e, by simp⟩
    | ok v =>
      rcases ih with ⟨vals, rfl⟩ | ⟨e, he⟩
      · exact .inl ⟨v :: vals, rfl⟩
      · exact .inr ⟨e, by simp [he]⟩

/-- The chunks of a pool, all successful: every chunk reads the random stream from the same state. -/
theorem chunks_ok {rng : Rng α ρ} {fuel : Nat} {sp : SciPy α} {cfg : Cfg α} {job : Job α} {st : TrialState α ρ} (lens : List Nat)
    (vals : List (List (List (List α) × Option (List α))))
    (h : lens.map (fun n => runChunk rng fuel sp cfg job n st) = vals.map .ok) :
    ∃ nss, List.Forall₂ (fun n ns => ns.length = n ∧ ∃ r', Stream rng cfg.noiseKind job.scale job.S.length st.random ns r') lens nss ∧
      List.Forall₂ (fun x out => trialOut fuel sp cfg.separateTrends st.emd.cfg job x = .ok out) nss.flatten vals.flatten ∧
      vals.flatten.length = lens.sum := by
  induction lens generalizing vals with
  | nil =>
    cases vals with
    | nil => exact ⟨[], .nil, .nil, rfl⟩
    | cons v vals => simp at h
  | cons n lens ih =>
    cases vals with
    | nil => simp at h
    | cons v vals =>
      simp only [List.map_cons, List.cons.injEq] at h
      obtain ⟨h1, h2⟩ := h
      obtain ⟨ns, r', hs, hl, hf⟩ := runChunk_ok n h1
      obtain ⟨nss, a, b, c⟩ := ih vals h2
      refine ⟨ns :: nss, .cons ⟨?_, r', hs⟩ a, ?_, ?_⟩
      · rw [hf.length_eq, hl]
      · rw [List.flatten_cons, List.flatten_cons]
        exact List.rel_append hf b
      · rw [List.flatten_cons, List.length_append, c, hl, List.sum_cons]

theorem chunkLengths_sum (trials c : Nat) (hc : c ≠ 0 ∨ trials = 0) : (chunkLengths trials c).sum = trials := by
  have hd := Nat.div_add_mod' trials c
  unfold chunkLengths
  rw [List.sum_append, List.sum_replicate, smul_eq_mul]
  split
  next h => rw [List.sum_nil]; omega
  next h => simpa using hd

theorem chunkLengths_length (trials c : Nat) (hc : c ≠ 0 ∨ trials = 0) : (chunkLengths trials c).length = trials ⌈/⌉ c := by
  rw [Nat.ceilDiv_eq_add_pred_div]
  unfold chunkLengths
  rw [List.length_append, List.length_replicate]
  rcases Nat.eq_zero_or_pos c with h0 | h0
  · have : trials = 0 := by omega
    subst this; subst h0; simp
  · have hd := Nat.div_add_mod trials c
    have hlt := Nat.mod_lt trials h0
    split
    next h =>
      rw [List.length_nil, Nat.add_zero]
      symm
      rw [Nat.div_eq_iff h0]
      rw [Nat.mul_comm] at hd
      omega
    next h =>
      rw [List.length_singleton]
      symm
      rw [Nat.div_eq_iff h0, Nat.add_mul]
      rw [Nat.mul_comm] at hd
      omega

theorem chunkSize_eq (trials p : Nat) (hp : 0 < p) : chunkSize trials p = trials ⌈/⌉ (4 * p) := by
  have := chunkLengths_length trials (4 * p) (by omega)
  rw [← this]
  unfold chunkSize chunkLengths
  split <;> simp

theorem chunkSize_ne_zero {trials p : Nat} (hp : 0 < p) (ht : 0 < trials) : chunkSize trials p ≠ 0 := by
  unfold chunkSize
  have hd := Nat.div_add_mod trials (4 * p)
  split
  next h =>
    rw [h] at hd
    intro h0
    rw [Nat.add_zero] at h0
    rw [h0, Nat.mul_zero] at hd
    omega
  next h => exact Nat.succ_ne_zero _

theorem chunkSize_le {trials p : Nat} (hp : 0 < p) : chunkSize trials p ≤ trials := by
  rw [chunkSize_eq _ _ hp, Nat.ceilDiv_eq_add_pred_div]
  rcases Nat.eq_zero_or_pos trials with h | h
  · subst h
    rw [Nat.div_eq_of_lt (by omega)]
  · apply Nat.le_of_lt_succ
    rw [Nat.div_lt_iff_lt_mul (by omega)]
    have h1 : trials * 1 ≤ trials * (4 * p) := Nat.mul_le_mul_left _ (by omega)
    have h2 : trials.succ * (4 * p) = trials * (4 * p) + 4 * p := Nat.succ_mul _ _
    rw [h2]
    omega

/-- The noises of a successful pool run are repetitions of the first draws. -/
theorem chunks_noise {rng : Rng α ρ} {kind : NoiseKind} {scale : α} {n : Nat} {r : ρ} (lens : List Nat) (nss : List (List (List α)))
    (first : List (List α)) (r1 : ρ) (hf : Stream rng kind scale n r first r1) (hle : ∀ l ∈ lens, l ≤ first.length)
    (h : List.Forall₂ (fun l ns => ns.length = l ∧ ∃ r', Stream rng kind scale n r ns r') lens nss) :
    nss = lens.map (fun l => first.take l) := by
  induction h with
  | nil => rfl
  | @cons l ns lens nss hd _ ih =>
    obtain ⟨hl, r', hs⟩ := hd
    rw [List.map_cons, ← ih (fun x hx => hle x (by simp [hx]))]
    congr 1
    have := Stream.prefix_of hs hf (by rw [hl]; exact hle l (by simp))
    rw [List.prefix_iff_eq_take] at this
    rw [this, hl]

theorem replicate_take_getElem? {β : Type} (first : List β) (q r t : Nat) (hr : r ≤ first.length) (ht : t < q * first.length + r) :
    ((List.replicate q first).flatten ++ first.take r)[t]? = first[t % first.length]? := by
  induction q generalizing t with
  | zero =>
    simp only [List.replicate_zero, List.flatten_nil, List.nil_append]
    rw [List.getElem?_take, if_pos (by omega), Nat.mod_eq_of_lt (by omega)]
  | succ q ih =>
    rw [List.replicate_succ, List.flatten_cons, List.append_assoc]
    rcases Nat.lt_or_ge t first.length with h | h
    · rw [List.getElem?_append_left h, Nat.mod_eq_of_lt h]
    · rw [List.getElem?_append_right h, ih (t - first.length) (by rw [Nat.succ_mul] at ht; omega), ← Nat.mod_eq_sub_mod h]

/-- Inversion of a successful `eemd`. -/
theorem Obj.eemd_post {rng : Rng α ρ} {fuel : Nat} {sp : SciPy α} {order : List Nat} {o o' : Obj α ρ} {S : List α} {T : Option (List α)}
    {m : Int} {E : List (List α)} (hord : o.cfg.parallel = true → Schedule o.cfg.trials o.cfg.processes order)
    (h : o.eemd rng fuel sp order S T m = (.ok E, o')) :
    ∃ job noises outs, prepare o.cfg S T m = .ok job ∧ outs.length = o.cfg.trials ∧
      List.Forall₂ (fun x out => trialOut fuel sp o.cfg.separateTrends o.emd.cfg job x = .ok out) noises outs ∧
      o'.allImfs = renameTrend (outs.foldl addTrial []) ∧ E = ensembleMean S.length o'.allImfs ∧ o'.E_IMF = some E ∧
      o'.residue = some (vsub S (sumRows S.length E)) ∧ o'.cfg = o.cfg ∧ o'.emd.cfg = o.emd.cfg ∧
      (Sized rng → ∀ x ∈ noises, x.length = job.S.length) ∧
      (o.cfg.parallel = false → Stream rng o.cfg.noiseKind job.scale job.S.length o.random noises o'.random) ∧
      (o.cfg.parallel = true → o'.random = o.random ∧ ∃ first r', Stream rng o.cfg.noiseKind job.scale job.S.length o.random first r' ∧
        first.length = o.cfg.trials ⌈/⌉ (4 * o.cfg.processes) ∧ ∀ t < o.cfg.trials, noises[t]? = first[t % first.length]?) := by
  unfold Obj.eemd at h
  cases hj : prepare o.cfg S T m with
  | error e => rw [hj] at h; simp at h
  | ok job =>
    rw [hj] at h
    dsimp only at h
    cases hp : o.cfg.parallel with
    | false =>
      rw [hp] at h
      simp only [Bool.false_eq_true, if_false] at h
      cases hr : runTrials rng fuel sp o.cfg job o.cfg.trials { random := o.random, emd := o.emd } [] with
      | mk x p =>
        obtain ⟨st, d⟩ := p
        rw [hr] at h
        cases x with
        | error e => simp at h
        | ok u =>
          obtain ⟨noises, outs, h1, h2, h3, h4, h5⟩ := runTrials_ok _ hr
          unfold finish at h
          simp only [Prod.mk.injEq, Except.ok.injEq] at h
          obtain ⟨rfl, rfl⟩ := h
          subst h4
          exact ⟨job, noises, outs, rfl, h2, h3, rfl, rfl, rfl, rfl, rfl, h5, fun hs => Stream.length_of hs h1, fun _ => h1, by simp⟩
    | true =>
      rw [hp] at h
      simp only [if_true] at h
      obtain ⟨hpp, hperm⟩ := hord hp
      have hsz := chunkSize_eq o.cfg.trials o.cfg.processes hpp
      have hc : chunkSize o.cfg.trials o.cfg.processes ≠ 0 ∨ o.cfg.trials = 0 := by
        rcases Nat.eq_zero_or_pos o.cfg.trials with h0 | h0
        · exact .inr h0
        · exact .inl (chunkSize_ne_zero hpp h0)
      have hcov : ∀ i < (chunkLengths o.cfg.trials (chunkSize o.cfg.trials o.cfg.processes)).length, i ∈ order := by
        intro i hi
        rw [chunkLengths_length _ _ hc, hsz] at hi
        exact hperm.mem_iff.2 (List.mem_range.2 hi)
      rcases all_ok_or ((chunkLengths o.cfg.trials (chunkSize o.cfg.trials o.cfg.processes)).map
        (fun n => runChunk rng fuel sp o.cfg job n { random := o.random, emd := o.emd })) with ⟨vals, hv⟩ | ⟨e, he⟩
      · have hlen : vals.length = (chunkLengths o.cfg.trials (chunkSize o.cfg.trials o.cfg.processes)).length := by
          have := congrArg List.length hv
          simpa using this.symm
        rw [hv, poolMap_ok vals order (by rw [hlen]; exact hcov)] at h
        dsimp only at h
        obtain ⟨nss, a, b, c⟩ := chunks_ok _ vals hv
        unfold finish at h
        simp only [Prod.mk.injEq, Except.ok.injEq] at h
        obtain ⟨rfl, rfl⟩ := h
        refine ⟨job, nss.flatten, vals.flatten, rfl, by rw [c, chunkLengths_sum _ _ hc], b, rfl, rfl, rfl, rfl, rfl, rfl, ?_, by simp, fun _ => ⟨rfl, ?_⟩⟩
        · intro hs x hx
          obtain ⟨ns, hns, hx⟩ := List.mem_flatten.1 hx
          obtain ⟨i, hi, rfl⟩ := List.getElem_of_mem hns
          have hl := (List.forall₂_iff_get.1 a).2 i (by rw [(List.forall₂_iff_get.1 a).1]; exact hi) hi
          obtain ⟨-, r', hst⟩ := hl
          exact Stream.length_of hs hst x hx
        · rcases Nat.eq_zero_or_pos o.cfg.trials with h0 | h0
          · refine ⟨[], _, .nil _, ?_, by omega⟩
            rw [← hsz, h0]
            simp [chunkSize]
          · have hc0 := chunkSize_ne_zero hpp h0
            have hcle := chunkSize_le (trials := o.cfg.trials) hpp
            have hq : 0 < o.cfg.trials / chunkSize o.cfg.trials o.cfg.processes := Nat.div_pos hcle (Nat.pos_of_ne_zero hc0)
            obtain ⟨q, hq⟩ := Nat.exists_eq_succ_of_ne_zero (Nat.pos_iff_ne_zero.1 hq)
            have hmod := Nat.mod_lt o.cfg.trials (Nat.pos_of_ne_zero hc0)
            have hlens : ∀ l ∈ chunkLengths o.cfg.trials (chunkSize o.cfg.trials o.cfg.processes), l ≤ chunkSize o.cfg.trials o.cfg.processes := by
              intro l hl
              unfold chunkLengths at hl
              rcases List.mem_append.1 hl with hl | hl
              · rw [(List.mem_replicate.1 hl).2]
              · split at hl
                · cases hl
                · rw [List.mem_singleton.1 hl]; omega
            have ha := a
            unfold chunkLengths at ha
            rw [hq, List.replicate_succ, List.cons_append] at ha
            cases ha with
            | @cons _ first _ nss' hd htl =>
              obtain ⟨hfl, r1, hfs⟩ := hd
              refine ⟨first, r1, hfs, by rw [hfl, hsz], fun t ht => ?_⟩
              have := chunks_noise _ _ first r1 hfs (by rw [hfl]; exact hlens) a
              rw [this]
              unfold chunkLengths
              rw [List.map_append, List.flatten_append, List.map_replicate, List.take_of_length_le (by rw [hfl])]
              have hdm := Nat.div_add_mod' o.cfg.trials (chunkSize o.cfg.trials o.cfg.processes)
              rw [← replicate_take_getElem? first (o.cfg.trials / chunkSize o.cfg.trials o.cfg.processes)
                (o.cfg.trials % chunkSize o.cfg.trials o.cfg.processes) t (by rw [hfl]; omega) (by rw [hfl, hdm]; exact ht)]
              split
              next h => rw [h]; simp
              next h => simp
      · obtain ⟨e', he', -⟩ := poolMap_error _ order (by rw [List.length_map]; exact hcov) e he
        rw [he'] at h
        simp at h

end EEMD
end PyEMD
