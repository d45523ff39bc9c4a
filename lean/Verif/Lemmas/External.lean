import Verif.Model.External
import Verif.Spec.Eemd
import Verif.Lemmas.Basic

/-!
# Two inner objects that do the same lead to the same ensemble
-/

set_option linter.unusedSectionVars false

namespace PyEMD
namespace EEMD
namespace Extern

variable {α ρ σ : Type} [Add α] [Sub α] [Mul α] [Div α] [Neg α] [LT α] [LE α] [BEq α]
  [DecidableLT α] [DecidableLE α] [NpScalar α]

/-- The inner object `X`, in states related by `R`, does what `EMD` does on the signals of this job. -/
structure Sim (fuel : Nat) (sp : SciPy α) (X : Ext α σ) (R : EMD.Obj α → σ → Prop) (job : Job α) (sep : Bool) : Prop where
  emd : ∀ o s x, R o s → x.length = job.S.length →
    (X.emd s x (some job.T) job.maxImf).1 = (o.emd fuel sp x (some job.T) job.maxImf).1 ∧
      R (o.emd fuel sp x (some job.T) job.maxImf).2 (X.emd s x (some job.T) job.maxImf).2
  trend : sep = true → ∀ o s, R o s → X.trend s = o.getImfsAndTrend.map (fun p => (p.1, Arr.row p.2))

/-- A trial's result with the trend as an array with one axis. -/
def up (r : List (List α) × Option (List α)) : List (List α) × Option (Arr α) := (r.1, r.2.map .row)

/-- Collected components as arrays. -/
def upD (d : Dict (List (List α))) : Dict (List (Arr α)) := d.map (fun p => (p.1, p.2.map .row))

theorem trialUpdate_sim {fuel : Nat} {sp : SciPy α} {X : Ext α σ} {R : EMD.Obj α → σ → Prop} {job : Job α} {cfg : Cfg α} {rng : Rng α ρ}
    (hs : Spec.Sized rng) (h : Sim fuel sp X R job cfg.separateTrends) {st : EEMD.TrialState α ρ} {st' : TrialState ρ σ}
    (hr : st'.random = st.random) (hR : R st.emd st'.emd) :
    (trialUpdate rng X cfg job st').1 = (EEMD.trialUpdate rng fuel sp cfg job st).1.map up ∧
      (trialUpdate rng X cfg job st').2.random = (EEMD.trialUpdate rng fuel sp cfg job st).2.random ∧
      R (EEMD.trialUpdate rng fuel sp cfg job st).2.emd (trialUpdate rng X cfg job st').2.emd := by
  unfold trialUpdate EEMD.trialUpdate
  rw [hr]
  have hlen : ∀ noise r, generateNoise rng cfg.noiseKind st.random job.scale job.S.length = (.ok noise, r) →
      noise.length = job.S.length := by
    intro noise r hg
    unfold generateNoise at hg
    cases hk : cfg.noiseKind <;> rw [hk] at hg <;> simp only [Prod.mk.injEq, Except.ok.injEq, reduceCtorEq, false_and] at hg
    · rw [← hg.1]; exact hs.1 _ _ _
    · rw [← hg.1]; exact hs.2 _ _ _ _
  match hg : generateNoise rng cfg.noiseKind st.random job.scale job.S.length with
  | (.error e, r) => exact ⟨rfl, rfl, hR⟩
  | (.ok noise, r) =>
    have hl := hlen _ _ hg
    obtain ⟨h1, h2⟩ := h.emd st.emd st'.emd (vadd job.S noise) hR (by unfold vadd; rw [List.length_zipWith, hl, Nat.min_self])
    dsimp only
    match hx : X.emd st'.emd (vadd job.S noise) (some job.T) job.maxImf,
      hy : st.emd.emd fuel sp (vadd job.S noise) (some job.T) job.maxImf with
    | (.error e, s), (.error e', o) =>
      rw [hx, hy] at h1 h2
      cases h1
      exact ⟨rfl, rfl, h2⟩
    | (.error e, s), (.ok r', o) => rw [hx, hy] at h1; cases h1
    | (.ok r', s), (.error e, o) => rw [hx, hy] at h1; cases h1
    | (.ok r', s), (.ok r'', o) =>
      rw [hx, hy] at h1 h2
      cases h1
      dsimp only
      by_cases hsep : cfg.separateTrends = true
      · rw [if_pos hsep, if_pos hsep, h.trend hsep o s h2]
        cases o.getImfsAndTrend with
        | error e => exact ⟨rfl, rfl, h2⟩
        | ok p => exact ⟨rfl, rfl, h2⟩
      · rw [if_neg hsep, if_neg hsep]
        exact ⟨rfl, rfl, h2⟩

theorem append_up (d : Dict (List (List α))) (k : Int) (x : List α) : Dict.append (upD d) k (.row x) = upD (d.append k x) := by
  induction d with
  | nil => rfl
  | cons p d ih =>
    obtain ⟨k', v⟩ := p
    simp only [upD, List.map_cons, Dict.append] at ih ⊢
    split
    · simp
    · rw [List.map_cons, ← ih]

theorem addImfs_up (d : Dict (List (List α))) (i : Nat) (l : List (List α)) : addImfs (upD d) i l = upD (EEMD.addImfs d i l) := by
  induction l generalizing d i with
  | nil => rfl
  | cons x l ih => rw [addImfs, EEMD.addImfs, append_up, ih]

theorem addTrial_up (d : Dict (List (List α))) (r : List (List α) × Option (List α)) : addTrial (upD d) (up r) = upD (EEMD.addTrial d r) := by
  obtain ⟨imfs, t⟩ := r
  unfold addTrial EEMD.addTrial up
  cases t with
  | none => exact addImfs_up _ _ _
  | some t => simp only [Option.map_some, append_up, addImfs_up]

theorem runTrials_sim {fuel : Nat} {sp : SciPy α} {X : Ext α σ} {R : EMD.Obj α → σ → Prop} {job : Job α} {cfg : Cfg α} {rng : Rng α ρ}
    (hs : Spec.Sized rng) (h : Sim fuel sp X R job cfg.separateTrends) (n : Nat) {st : EEMD.TrialState α ρ} {st' : TrialState ρ σ}
    (hr : st'.random = st.random) (hR : R st.emd st'.emd) (d : Dict (List (List α))) :
    (runTrials rng X cfg job n st' (upD d)).1 = (EEMD.runTrials rng fuel sp cfg job n st d).1 ∧
      (runTrials rng X cfg job n st' (upD d)).2.1.random = (EEMD.runTrials rng fuel sp cfg job n st d).2.1.random ∧
      R (EEMD.runTrials rng fuel sp cfg job n st d).2.1.emd (runTrials rng X cfg job n st' (upD d)).2.1.emd ∧
      (runTrials rng X cfg job n st' (upD d)).2.2 = upD (EEMD.runTrials rng fuel sp cfg job n st d).2.2 := by
  induction n generalizing st st' d with
  | zero => exact ⟨rfl, hr, hR, rfl⟩
  | succ n ih =>
    obtain ⟨h1, h2, h3⟩ := trialUpdate_sim hs h hr hR
    unfold runTrials EEMD.runTrials
    match hx : trialUpdate rng X cfg job st', hy : EEMD.trialUpdate rng fuel sp cfg job st with
    | (.error e, s), (.error e', o) =>
      rw [hx, hy] at h1 h2 h3
      cases h1
      exact ⟨rfl, h2, h3, rfl⟩
    | (.error e, s), (.ok r', o) => rw [hx, hy] at h1; cases h1
    | (.ok r', s), (.error e, o) => rw [hx, hy] at h1; cases h1
    | (.ok r', s), (.ok r'', o) =>
      rw [hx, hy] at h1 h2 h3
      cases h1
      dsimp only
      rw [addTrial_up]
      exact ih h2 h3 _

theorem runChunk_sim {fuel : Nat} {sp : SciPy α} {X : Ext α σ} {R : EMD.Obj α → σ → Prop} {job : Job α} {cfg : Cfg α} {rng : Rng α ρ}
    (hs : Spec.Sized rng) (h : Sim fuel sp X R job cfg.separateTrends) (n : Nat) {st : EEMD.TrialState α ρ} {st' : TrialState ρ σ}
    (hr : st'.random = st.random) (hR : R st.emd st'.emd) :
    runChunk rng X cfg job n st' = (EEMD.runChunk rng fuel sp cfg job n st).map (List.map up) := by
  induction n generalizing st st' with
  | zero => rfl
  | succ n ih =>
    obtain ⟨h1, h2, h3⟩ := trialUpdate_sim hs h hr hR
    unfold runChunk EEMD.runChunk
    match hx : trialUpdate rng X cfg job st', hy : EEMD.trialUpdate rng fuel sp cfg job st with
    | (.error e, s), (.error e', o) => rw [hx, hy] at h1; cases h1; rfl
    | (.error e, s), (.ok r', o) => rw [hx, hy] at h1; cases h1
    | (.ok r', s), (.error e, o) => rw [hx, hy] at h1; cases h1
    | (.ok r', s), (.ok r'', o) =>
      rw [hx, hy] at h1 h2 h3
      cases h1
      dsimp only
      rw [ih h2 h3]
      cases EEMD.runChunk rng fuel sp cfg job n o <;> rfl

theorem collect_map {β γ : Type} (f : β → γ) (results : List (PyM (List β))) (slots : List (List β)) (err : Option PyErr) (order : List Nat) :
    collect (results.map (fun r => r.map (List.map f))) (slots.map (List.map f)) err order =
      ((collect results slots err order).1.map (List.map f), (collect results slots err order).2) := by
  induction order generalizing slots err with
  | nil => rfl
  | cons i order ih =>
    unfold collect
    rw [List.getElem?_map]
    match results[i]? with
    | none => exact ih _ _
    | some (.error e) => exact ih _ _
    | some (.ok r) =>
      simp only [Option.map_some, Except.map]
      split
      · rw [← List.map_set]; exact ih _ _
      · exact ih _ _

theorem poolMap_map {β γ : Type} (f : β → γ) (results : List (PyM (List β))) (order : List Nat) :
    poolMap (results.map (fun r => r.map (List.map f))) order = (poolMap results order).map (List.map f) := by
  unfold poolMap
  have := collect_map f results (List.replicate results.length []) none order
  rw [List.map_replicate, List.map_nil] at this
  rw [List.length_map, this]
  match collect results (List.replicate results.length []) none order with
  | (slots, none) => simp [Except.map, List.map_flatten]
  | (_, some e) => rfl

theorem foldl_up (l : List (List (List α) × Option (List α))) (d : Dict (List (List α))) :
    (l.map up).foldl addTrial (upD d) = upD (l.foldl EEMD.addTrial d) := by
  induction l generalizing d with
  | nil => rfl
  | cons r l ih => rw [List.map_cons, List.foldl_cons, List.foldl_cons, addTrial_up, ih]

theorem lookup_up (d : Dict (List (List α))) (k : Int) : (upD d).lookup k = (d.lookup k).map (List.map .row) := by
  induction d with
  | nil => rfl
  | cons p d ih =>
    obtain ⟨k', v⟩ := p
    simp only [upD, List.map_cons, List.lookup_cons] at ih ⊢
    cases k == k' with
    | true => rfl
    | false => exact ih

theorem renameTrend_up (d : Dict (List (List α))) : renameTrend (upD d) = upD (renameTrend d) := by
  unfold renameTrend
  rw [lookup_up]
  cases d.lookup (-1) with
  | none => rfl
  | some v =>
    simp only [Option.map_some, upD, List.filter_map, List.length_map, List.map_append, List.map_cons, List.map_nil]
    rfl

theorem rowsOf_row (l : List (List α)) : rowsOf (l.map .row) = some l := by
  induction l with
  | nil => rfl
  | cons x l ih => rw [List.map_cons, rowsOf, ih]; rfl

theorem meanArr_row (n : Nat) (l : List (List α)) : meanArr n (l.map .row) = .ok (.row (meanRows n l)) := by
  unfold meanArr
  rw [rowsOf_row]

theorem means_up (n : Nat) (d : Dict (List (List α))) :
    CEEMDAN.mapE (fun p => meanArr n p.2) (upD d) = .ok ((ensembleMean n d).map .row) := by
  induction d with
  | nil => rfl
  | cons p d ih =>
    simp only [upD, List.map_cons, CEEMDAN.mapE, ensembleMean] at ih ⊢
    rw [meanArr_row, ih]

theorem stackArr_row (l : List (List α)) : stackArr (l.map .row) = .ok (l.map .row) := by
  unfold stackArr
  rw [rowsOf_row]

theorem finish_up (S : List α) (o : EEMD.Obj α ρ) (o' : Obj α ρ σ) (d : Dict (List (List α))) :
    finish S o' (upD d) = (.ok ((ensembleMean S.length (renameTrend d)).map .row), { o' with
      allImfs := upD (EEMD.finish S o d).2.allImfs, E_IMF := (EEMD.finish S o d).2.E_IMF.map (List.map .row),
      residue := (EEMD.finish S o d).2.residue.map .row }) := by
  unfold finish EEMD.finish
  simp only [renameTrend_up, means_up, stackArr_row, residueArr, rowsOf_row, Option.map_some]

/-- The `EEMD` object with another inner object. -/
def upO (o : EEMD.Obj α ρ) (s : σ) : Obj α ρ σ :=
  { cfg := o.cfg, random := o.random, emd := s, E_IMF := o.E_IMF.map (List.map .row), residue := o.residue.map .row, allImfs := upD o.allImfs }

/-- An inner object that does what `EMD` does leads to the same result and the same attributes. -/
theorem eemd_sim {fuel : Nat} {sp : SciPy α} {X : Ext α σ} {R : EMD.Obj α → σ → Prop} {rng : Rng α ρ} (hs : Spec.Sized rng) (order : List Nat)
    (o : EEMD.Obj α ρ) (s : σ) (hR : R o.emd s) (S : List α) (T : Option (List α)) (m : Int)
    (h : ∀ job, prepare o.cfg S T m = .ok job → Sim fuel sp X R job o.cfg.separateTrends) :
    ((upO o s).eemd rng X order S T m).1 = ((o.eemd rng fuel sp order S T m).1).map (List.map .row) ∧
    ∃ s', ((upO o s).eemd rng X order S T m).2 = upO (o.eemd rng fuel sp order S T m).2 s' ∧ R (o.eemd rng fuel sp order S T m).2.emd s' := by
  unfold Obj.eemd EEMD.Obj.eemd
  rw [show (upO o s).cfg = o.cfg from rfl]
  cases hp : prepare o.cfg S T m with
  | error e => exact ⟨rfl, s, rfl, hR⟩
  | ok job =>
    have h := h job hp
    dsimp only
    by_cases hpar : o.cfg.parallel = true
    · rw [if_pos hpar, if_pos hpar]
      have e1 : ∀ l : List Nat, l.map (fun n => runChunk rng X o.cfg job n ({ random := (upO o s).random, emd := (upO o s).emd } : TrialState ρ σ)) =
          (l.map (fun n => EEMD.runChunk rng fuel sp o.cfg job n ({ random := o.random, emd := o.emd } : EEMD.TrialState α ρ))).map
            (fun r => r.map (List.map up)) := by
        intro l
        rw [List.map_map]
        apply List.map_congr_left
        intro n _
        exact runChunk_sim hs h n (st := { random := o.random, emd := o.emd }) (st' := { random := (upO o s).random, emd := (upO o s).emd }) rfl hR
      rw [e1, poolMap_map]
      cases poolMap ((chunkLengths o.cfg.trials (chunkSize o.cfg.trials o.cfg.processes)).map
          (fun n => EEMD.runChunk rng fuel sp o.cfg job n ({ random := o.random, emd := o.emd } : EEMD.TrialState α ρ))) order with
      | error e => exact ⟨rfl, s, rfl, hR⟩
      | ok rs =>
        simp only [Except.map]
        rw [show ([] : Dict (List (Arr α))) = upD [] from rfl, foldl_up, finish_up S o]
        exact ⟨rfl, s, rfl, hR⟩
    · rw [if_neg hpar, if_neg hpar]
      obtain ⟨h1, h2, h3, h4⟩ := runTrials_sim hs h o.cfg.trials (st := { random := o.random, emd := o.emd })
        (st' := { random := (upO o s).random, emd := (upO o s).emd }) rfl hR []
      rw [show upD ([] : Dict (List (List α))) = [] from rfl] at h1 h2 h3 h4
      match hx : runTrials rng X o.cfg job o.cfg.trials { random := (upO o s).random, emd := (upO o s).emd } [],
        hy : EEMD.runTrials rng fuel sp o.cfg job o.cfg.trials { random := o.random, emd := o.emd } [] with
      | (.error e, st', d'), (.error e', st, d) =>
        rw [hx, hy] at h1 h2 h3 h4
        cases h1
        dsimp only at h2 h3 h4
        refine ⟨rfl, st'.emd, ?_, h3⟩
        simp only [upO, h2, h4]
      | (.error e, st', d'), (.ok (), st, d) => rw [hx, hy] at h1; cases h1
      | (.ok (), st', d'), (.error e, st, d) => rw [hx, hy] at h1; cases h1
      | (.ok (), st', d'), (.ok (), st, d) =>
        rw [hx, hy] at h1 h2 h3 h4
        dsimp only at h2 h3 h4
        dsimp only
        rw [h4, finish_up S { o with random := st.random, emd := st.emd }]
        refine ⟨rfl, st'.emd, ?_, h3⟩
        simp only [upO, h2]
        rfl

end Extern
end EEMD
end PyEMD
