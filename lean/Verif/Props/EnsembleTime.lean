import Verif.Props.CeemdanNegation
import Verif.Props.EmdExact
import Verif.Props.EmdLoop

/-!
# C152: the time axis of `EEMD` and `CEEMDAN`
-/

set_option linter.unusedSectionVars false

namespace PyEMD
namespace EEMD

section
variable {α ρ : Type} [Add α] [Sub α] [Mul α] [Div α] [Neg α] [LT α] [LE α] [BEq α] [DecidableLT α] [DecidableLE α] [NpScalar α]

theorem afterNoise_pure (rng : Rng α ρ) (fuel : Nat) (sp : SciPy α) (cfg : Cfg α) (job : Job α) (st : TrialState α ρ) :
    (trialUpdate rng fuel sp cfg job st).2.emd.cfg = st.emd.cfg := by
  unfold trialUpdate
  cases generateNoise rng cfg.noiseKind st.random job.scale job.S.length with
  | mk noise r =>
    cases noise with
    | error e => rfl
    | ok noise =>
      dsimp only
      unfold EMD.Obj.emd
      cases h : EMD.emdPure fuel sp st.emd.cfg (vadd job.S noise) (some job.T) job.maxImf with
      | error e => simp only [h]
      | ok R =>
        simp only [h]
        cases cfg.separateTrends with
        | false => rfl
        | true =>
          rw [if_pos rfl]
          cases EMD.Obj.getImfsAndTrend ⟨st.emd.cfg, some R.imfs, some R.residue⟩ <;> rfl

theorem trial_time (rng : Rng α ρ) {fuel : Nat} {sp : SciPy α} (cfg : Cfg α) (job : Job α) (T' : List α) (st : TrialState α ρ)
    (h : ∀ S, EMD.emdPure fuel sp st.emd.cfg S (some T') job.maxImf = EMD.emdPure fuel sp st.emd.cfg S (some job.T) job.maxImf) :
    trialUpdate rng fuel sp cfg { job with T := T' } st = trialUpdate rng fuel sp cfg job st := by
  unfold trialUpdate EMD.Obj.emd
  simp only [h]

theorem runTrials_time (rng : Rng α ρ) {fuel : Nat} {sp : SciPy α} (cfg : Cfg α) (job : Job α) (T' : List α) (ecfg : EMD.Cfg α)
    (h : ∀ S, EMD.emdPure fuel sp ecfg S (some T') job.maxImf = EMD.emdPure fuel sp ecfg S (some job.T) job.maxImf) :
    ∀ (n : Nat) (st : TrialState α ρ) (d : Dict (List (List α))), st.emd.cfg = ecfg →
      runTrials rng fuel sp cfg { job with T := T' } n st d = runTrials rng fuel sp cfg job n st d := by
  intro n
  induction n with
  | zero => intro st d _; rfl
  | succ n ih =>
    intro st d hs
    rw [runTrials, runTrials, trial_time rng cfg job T' st (by rw [hs]; exact h)]
    have hc := afterNoise_pure rng fuel sp cfg job st
    cases hp : trialUpdate rng fuel sp cfg job st with
    | mk x st' =>
      rw [hp] at hc
      cases x with
      | error e => rfl
      | ok r => exact ih st' _ (hc.trans hs)

theorem runChunk_time (rng : Rng α ρ) {fuel : Nat} {sp : SciPy α} (cfg : Cfg α) (job : Job α) (T' : List α) (ecfg : EMD.Cfg α)
    (h : ∀ S, EMD.emdPure fuel sp ecfg S (some T') job.maxImf = EMD.emdPure fuel sp ecfg S (some job.T) job.maxImf) :
    ∀ (n : Nat) (st : TrialState α ρ), st.emd.cfg = ecfg →
      runChunk rng fuel sp cfg { job with T := T' } n st = runChunk rng fuel sp cfg job n st := by
  intro n
  induction n with
  | zero => intro st _; rfl
  | succ n ih =>
    intro st hs
    rw [runChunk, runChunk, trial_time rng cfg job T' st (by rw [hs]; exact h)]
    have hc := afterNoise_pure rng fuel sp cfg job st
    cases hp : trialUpdate rng fuel sp cfg job st with
    | mk x st' =>
      rw [hp] at hc
      cases x with
      | error e => rfl
      | ok r =>
        dsimp only
        rw [ih st' (hc.trans hs)]

theorem eemd_time (rng : Rng α ρ) (fuel : Nat) (sp : SciPy α) (order : List Nat) (o : Obj α ρ) (S T T' : List α) (m : Int)
    (h : ∀ S, EMD.emdPure fuel sp o.emd.cfg S (some T') m = EMD.emdPure fuel sp o.emd.cfg S (some T) m) :
    o.eemd rng fuel sp order S (some T') m = o.eemd rng fuel sp order S (some T) m := by
  unfold Obj.eemd prepare
  by_cases he : S = []
  · subst he; rfl
  have h1 : npMaxE S = .ok (npMax S) := by simp [npMaxE, he]
  have h2 : npMinE S = .ok (npMin S) := by simp [npMinE, he]
  rw [h1, h2]
  have ht := runTrials_time rng (fuel := fuel) (sp := sp) o.cfg ⟨S, T, o.cfg.noiseWidth * pyAbs (npMax S - npMin S), m⟩ T' o.emd.cfg h
    o.cfg.trials { random := o.random, emd := o.emd } [] rfl
  have hc := fun n => runChunk_time rng (fuel := fuel) (sp := sp) o.cfg ⟨S, T, o.cfg.noiseWidth * pyAbs (npMax S - npMin S), m⟩ T' o.emd.cfg h
    n { random := o.random, emd := o.emd } rfl
  dsimp only at ht hc
  show (if o.cfg.parallel = true then _ else _) = (if o.cfg.parallel = true then _ else _)
  simp only [ht, hc]

theorem prepare_none (cfg : Cfg α) (S : List α) (m : Int) (h : S ≠ []) :
    prepare cfg S none m = prepare cfg S (some ((List.range S.length).map (fun k : Nat => lit (k : ℚ)))) m := by
  have : (EMD.timeline S.length : PyM (List α)) = .ok ((List.range S.length).map (fun k : Nat => lit (k : ℚ))) := by
    unfold EMD.timeline
    rw [if_neg (by simpa using h)]
  unfold prepare
  simp only [this]
  rfl

/-- **C152, simple detection**: the time array given to `EEMD` does not matter, in any arithmetic: the run with any array of the right length is the run
without one. -/
theorem C152_eemd_simple (rng : Rng α ρ) (fuel : Nat) (sp : SciPy α) (order : List Nat) (o : Obj α ρ) (hd : o.emd.cfg.detection = .simple)
    (S T : List α) (hS : S ≠ []) (hl : T.length = S.length) (m : Int) :
    o.eemd rng fuel sp order S (some T) m = o.eemd rng fuel sp order S none m := by
  have key : o.eemd rng fuel sp order S (some T) m =
      o.eemd rng fuel sp order S (some ((List.range S.length).map (fun k : Nat => lit (k : ℚ)))) m := by
    refine eemd_time rng fuel sp order o S _ _ m (fun S' => ?_)
    have : EMD.prepareTime o.emd.cfg S' (some T) = EMD.prepareTime o.emd.cfg S' (some ((List.range S.length).map (fun k : Nat => lit (k : ℚ)))) := by
      simp [EMD.prepareTime, hd, hl]
    unfold EMD.emdPure EMD.emdRounds
    rw [this]
  rw [key]
  unfold Obj.eemd
  rw [prepare_none o.cfg S m hS]

end

section
variable {K ρ : Type} [Field K] [LinearOrder K] [IsStrictOrderedRing K] [FloorRing K]

/-- **C152, any detection**: the unit and the origin of the time axis do not matter to `EEMD`: `seconds` and `milliseconds since noon` give the same
components, the same stored results and the same exceptions. -/
theorem C152_eemd_affine (rng : Rng K ρ) (fuel : Nat) (sp : SciPy K) (order : List Nat) (o : Obj K ρ) (S T : List K) (m : Int) (c d : K) (hc : 0 < c) :
    o.eemd rng fuel sp order S (some (T.map (fun x => c * x + d))) m = o.eemd rng fuel sp order S (some T) m := by
  refine eemd_time rng fuel sp order o S _ _ m (fun S' => ?_)
  have : EMD.prepareTime o.emd.cfg S' (some (T.map (fun x => c * x + d))) = EMD.prepareTime o.emd.cfg S' (some T) := by
    simp only [EMD.prepareTime, List.length_map, EMD.normalizeTime_affine c d hc]
  unfold EMD.emdPure EMD.emdRounds
  rw [this]

end

/-- A run of `EEMD` on uneven time stamps with parabolic detection. -/
example : okWith (fun E => 2 ≤ E.length) (({ sampleObj sampleCfg with emd := ⟨{ EMD.sampleFixe with detection := .parabol }, none, none⟩ } : Obj ℚ Nat).eemd
    sampleRng 20 linSciPy [] EMD.sampleS (some [0, 1, 3, 4, 5, 7, 8, 9, 11, 12]) 1).1 = true := by decide +kernel

end EEMD

namespace CEEMDAN
open EEMD.Spec Spec

section
variable {α ρ : Type} [Add α] [Sub α] [Mul α] [Div α] [Neg α] [LT α] [LE α] [BEq α] [DecidableLT α] [DecidableLE α] [NpScalar α]

theorem emd_time {fuel : Nat} {sp : SciPy α} {ecfg : EMD.Cfg α} {S : List α} {T T' : Option (List α)}
    (h : EMD.prepareTime ecfg S T' = EMD.prepareTime ecfg S T) (m : Int) : emd fuel sp ecfg S T' m = emd fuel sp ecfg S T m := by
  unfold emd EMD.emdPure EMD.emdRounds
  rw [h]

/-- Time array of the first stage.  /repo/PyEMD/CEEMDAN.py:343-344. -/
def firstTime (S : List α) : Option (List α) → List α
  | some T => T
  | none => (List.range S.length).map (fun k : Nat => lit (k : ℚ))

/-- What the proofs need of two time arrays. -/
structure SameTime (ecfg : EMD.Cfg α) (n : Nat) (T T' : Option (List α)) : Prop where
  first : ∀ S S' : List α, S.length = n → EMD.prepareTime ecfg S' (some (firstTime S T')) = EMD.prepareTime ecfg S' (some (firstTime S T))
  later : ∀ S : List α, S.length = n → EMD.prepareTime ecfg S T' = EMD.prepareTime ecfg S T

theorem eemd_time {fuel : Nat} {sp : SciPy α} {cfg : Cfg α} {ecfg : EMD.Cfg α} (noise : List (List (List α))) (order : List Nat) {S : List α}
    {T T' : Option (List α)} (h : SameTime ecfg S.length T T') (m : Int) :
    eemd fuel sp cfg ecfg noise order S T' m = eemd fuel sp cfg ecfg noise order S T m := by
  have key : trialUpdate fuel sp cfg ecfg noise S (firstTime S T') m = trialUpdate fuel sp cfg ecfg noise S (firstTime S T) m := by
    funext t
    unfold trialUpdate
    cases noise[t]? with
    | none => rfl
    | some imfs =>
      cases imfs with
      | nil => rfl
      | cons i _ => exact emd_time (h.first S _ rfl) m
  unfold eemd
  cases T <;> cases T' <;> simp only [firstTime] at key <;> simp only [key]

theorem mapE_congr {β γ : Type} {f g : β → PyM γ} : ∀ {l : List β}, (∀ x ∈ l, f x = g x) → mapE f l = mapE g l := by
  intro l
  induction l with
  | nil => intro _; rfl
  | cons x l ih =>
    intro h
    rw [mapE, mapE, h x (by simp), ih (fun y hy => h y (by simp [hy]))]

theorem sumRows_length (n : Nat) (rows : List (List α)) (h : ∀ r ∈ rows, r.length = n) : (sumRows n rows).length = n := by
  have key : ∀ (rows : List (List α)) (acc : List α), (∀ r ∈ rows, r.length = n) → acc.length = n → (rows.foldl vadd acc).length = n := by
    intro rows
    induction rows with
    | nil => intro acc _ h; exact h
    | cons r rows ih =>
      intro acc h1 h2
      exact ih _ (fun r' hr' => h1 r' (by simp [hr'])) (by simp [vadd, h2, h1 r (by simp)])
  exact key rows _ h (by simp)

/-- Signal of a trial of a stage. -/
theorem stage_input_length {prev : List α} {noise : List (List α)} (hn : ∀ r ∈ noise, r.length = prev.length) (beta : α) (k : Nat) :
    (match noise[k]? with
      | some x => vadd prev (vscale beta x)
      | none => prev).length = prev.length := by
  cases h : noise[k]? with
  | none => rfl
  | some x => simp [vadd, vscale, hn x (List.mem_of_getElem? h)]

theorem stageTrial_length {fuel : Nat} {sp : SciPy α} {ecfg : EMD.Cfg α} {prev : List α} {T : Option (List α)} {beta : α} {k : Nat}
    {noise : List (List α)} (hn : ∀ r ∈ noise, r.length = prev.length) {x : List α} (h : stageTrial fuel sp ecfg prev T beta k noise = .ok x) :
    x.length = prev.length := by
  unfold stageTrial at h
  dsimp only at h
  split at h
  · cases h
  next imfs himfs =>
    have := (emd_ok himfs).2
    split at h
    · cases h
    next r hr =>
      injection h with h
      subst h
      rw [this _ (List.mem_of_getLast? hr)]
      exact stage_input_length hn beta k

theorem stageTrial_time {fuel : Nat} {sp : SciPy α} {ecfg : EMD.Cfg α} {prev : List α} {T T' : Option (List α)} (h : SameTime ecfg prev.length T T')
    (beta : α) (k : Nat) {noise : List (List α)} (hn : ∀ r ∈ noise, r.length = prev.length) :
    stageTrial fuel sp ecfg prev T' beta k noise = stageTrial fuel sp ecfg prev T beta k noise := by
  have := emd_time (fuel := fuel) (sp := sp) (h.later _ (stage_input_length hn beta k)) 1
  unfold stageTrial
  cases hk : noise[k]? with
  | none =>
    rw [hk] at this
    dsimp only at this ⊢
    rw [this]
  | some x =>
    rw [hk] at this
    dsimp only at this ⊢
    rw [this]

theorem localMean_time {std : List α → α} {fuel : Nat} {sp : SciPy α} {cfg : Cfg α} {ecfg : EMD.Cfg α} {noise : List (List (List α))}
    {prev : List α} (hn : Lens prev.length noise) {T T' : Option (List α)} (h : SameTime ecfg prev.length T T') (k : Nat) :
    localMean std fuel sp cfg ecfg noise prev T' k = localMean std fuel sp cfg ecfg noise prev T k := by
  unfold localMean
  dsimp only
  rw [mapE_congr (fun x hx => stageTrial_time h _ k (hn x (List.mem_of_mem_take hx)))]

theorem localMean_length {std : List α → α} {fuel : Nat} {sp : SciPy α} {cfg : Cfg α} {ecfg : EMD.Cfg α} {noise : List (List (List α))}
    {prev : List α} (hn : Lens prev.length noise) {T : Option (List α)} {k : Nat} {lm : List α}
    (h : localMean std fuel sp cfg ecfg noise prev T k = .ok lm) : lm.length = prev.length := by
  unfold localMean at h
  dsimp only at h
  split at h
  · cases h
  next rs hrs =>
    injection h with h
    subst h
    apply sumRows_length
    intro r hr
    obtain ⟨x, hx, rfl⟩ := List.mem_map.1 hr
    rw [mapE_ok] at hrs
    obtain ⟨y, hy, hyx⟩ := mem_of_forall₂ hrs hx
    simp only [vdiv, List.length_map]
    exact stageTrial_length (hn y (List.mem_of_mem_take hy)) hyx

theorem stages_time {std : List α → α} {fuel : Nat} {sp : SciPy α} {cfg : Cfg α} {ecfg : EMD.Cfg α} {noise : List (List (List α))} {S : List α}
    (hn : Lens S.length noise) {T T' : Option (List α)} (h : SameTime ecfg S.length T T') (m : Int) : ∀ (n : Nat) (c : List (List α)) (prev : List α),
    prev.length = S.length → stages std fuel sp cfg ecfg noise S T' m n c prev = stages std fuel sp cfg ecfg noise S T m n c prev := by
  intro n
  induction n with
  | zero => intro c prev _; rfl
  | succ n ih =>
    intro c prev hp
    rw [stages, stages, localMean_time (by rw [hp]; exact hn) (by rw [hp]; exact h)]
    cases endCondition fuel sp cfg ecfg S c m with
    | error e => rfl
    | ok b =>
      cases b with
      | true => rfl
      | false =>
        dsimp only
        cases hl : localMean std fuel sp cfg ecfg noise prev T c.length with
        | error e => rfl
        | ok lm => exact ih _ lm ((localMean_length (by rw [hp]; exact hn) hl).trans hp)

theorem accumulate_head (n : Nat) (e : List α) (E I : List (List α)) (he : e.length = n) (hI : ∀ r ∈ I, r.length = n) :
    ∃ e' E', accumulate n (e :: E) I = e' :: E' ∧ e'.length = n := by
  cases I with
  | nil => exact ⟨e, E, by simp [accumulate], he⟩
  | cons i I => exact ⟨_, _, rfl, by simp [vadd, he, hI i (by simp)]⟩

theorem eemd_length {fuel : Nat} {sp : SciPy α} {cfg : Cfg α} {ecfg : EMD.Cfg α} {noise : List (List (List α))} {order : List Nat} {S : List α}
    (hn : Lens S.length noise) {T : Option (List α)} {m : Int} {first : List α} {E : List (List α)}
    (h : eemd fuel sp cfg ecfg noise order S T m = .ok (first :: E)) : first.length = S.length := by
  unfold eemd at h
  dsimp only at h
  split at h
  · cases h
  next rs hrs =>
    split at h
    · cases h
    · injection h with h
      rw [mapE_ok] at hrs
      have hl : Lens S.length rs := by
        intro rows hrows
        obtain ⟨t, -, htr⟩ := mem_of_forall₂ hrs hrows
        obtain ⟨imfs, i, h1, h2, h3⟩ := trialUpdate_ok htr
        have hi : i.length = S.length := hn imfs (List.mem_of_getElem? h1) i (List.mem_of_mem_head? h2)
        have := (emd_ok h3).2
        simpa [vscale, hi] using this
      have key : ∀ (rs : List (List (List α))), Lens S.length rs → ∀ (e : List α) (E : List (List α)), e.length = S.length →
          ∃ e' E', rs.foldl (accumulate S.length) (e :: E) = e' :: E' ∧ e'.length = S.length := by
        intro rs
        induction rs with
        | nil => intro _ e E he; exact ⟨e, E, rfl, he⟩
        | cons r rs ih =>
          intro hl e E he
          obtain ⟨e', E', h1, h2⟩ := accumulate_head S.length e E r he (hl r (by simp))
          rw [List.foldl_cons, h1]
          exact ih (fun r' hr' => hl r' (by simp [hr'])) e' E' h2
      obtain ⟨e', E', h1, h2⟩ := key rs hl (vzeros S.length) [] (by simp)
      rw [h1, List.map_cons] at h
      injection h with h _
      rw [← h]
      simpa [vdiv] using h2

theorem ceemdan_time (rng : Rng α ρ) (hs : Sized rng) (std : List α → α) (fuel : Nat) (sp : SciPy α) (orderN orderT : List Nat) (o : Obj α ρ)
    (hN : o.cfg.parallel = true → Schedule o.cfg.trials o.cfg.processes orderN) (S : List α) {T T' : Option (List α)}
    (h : SameTime o.emd S.length T T') (m : Int) :
    o.ceemdan rng std fuel sp orderN orderT S T' m = o.ceemdan rng std fuel sp orderN orderT S T m := by
  have hlen : (vdiv S (std S)).length = S.length := by simp [vdiv]
  unfold Obj.ceemdan
  dsimp only
  split
  · rfl
  cases hx : noises rng o.cfg o.random (vdiv S (std S)).length with
  | mk x r =>
    cases x with
    | error e => rfl
    | ok x =>
      dsimp only
      cases hd : decomposeNoise std fuel sp o.cfg o.emd orderN x with
      | error e => rfl
      | ok noise =>
        dsimp only
        rw [hlen] at hx
        obtain ⟨flat, hdraw, rfl⟩ := noises_ok hx
        have hnoise := decomposeNoise_ok (length_reshape S.length o.cfg.trials flat) hN hd
        have hxr := reshape_rows S.length o.cfg.trials flat (draw_length hs hdraw)
        have hL : Lens (vdiv S (std S)).length noise := by
          intro imfs himfs r hr
          obtain ⟨y, hy, hyi⟩ := mem_of_forall₂ hnoise himfs
          rw [NoiseImfs.lengths hyi r hr, hxr y hy, hlen]
        have h' : SameTime o.emd (vdiv S (std S)).length T T' := by rw [hlen]; exact h
        have hb : body std fuel sp o.cfg o.emd noise orderT (vdiv S (std S)) T' m = body std fuel sp o.cfg o.emd noise orderT (vdiv S (std S)) T m := by
          unfold body
          rw [eemd_time noise orderT h' 1]
          cases hE : eemd fuel sp o.cfg o.emd noise orderT (vdiv S (std S)) T 1 with
          | error e => rfl
          | ok E =>
            cases E with
            | nil => rfl
            | cons first E =>
              dsimp only
              rw [stages_time hL h' m _ _ _ (by simp [vsub, eemd_length hL hE])]
        rw [hb]

/-- **C152, simple detection**: the time array given to `CEEMDAN` does not matter, in any arithmetic. -/
theorem C152_ceemdan_simple (rng : Rng α ρ) (hs : Sized rng) (std : List α → α) (fuel : Nat) (sp : SciPy α) (orderN orderT : List Nat) (o : Obj α ρ)
    (hN : o.cfg.parallel = true → Schedule o.cfg.trials o.cfg.processes orderN) (hd : o.emd.detection = .simple) (S T : List α)
    (hl : T.length = S.length) (m : Int) :
    o.ceemdan rng std fuel sp orderN orderT S (some T) m = o.ceemdan rng std fuel sp orderN orderT S none m := by
  refine ceemdan_time rng hs std fuel sp orderN orderT o hN S ⟨fun S₁ S' h => ?_, fun S' h => ?_⟩ m
  · simp [EMD.prepareTime, hd, firstTime, h, hl]
  · simp [EMD.prepareTime, hd, h, hl]

end

section
variable {K ρ : Type} [Field K] [LinearOrder K] [IsStrictOrderedRing K] [FloorRing K]

/-- **C152, any detection**: the unit and the origin of the time axis do not matter to `CEEMDAN`. -/
theorem C152_ceemdan_affine (rng : Rng K ρ) (hs : Sized rng) (std : List K → K) (fuel : Nat) (sp : SciPy K) (orderN orderT : List Nat) (o : Obj K ρ)
    (hN : o.cfg.parallel = true → Schedule o.cfg.trials o.cfg.processes orderN) (S T : List K) (m : Int) (c d : K) (hc : 0 < c) :
    o.ceemdan rng std fuel sp orderN orderT S (some (T.map (fun x => c * x + d))) m = o.ceemdan rng std fuel sp orderN orderT S (some T) m := by
  have key : ∀ S' : List K, EMD.prepareTime o.emd S' (some (T.map (fun x => c * x + d))) = EMD.prepareTime o.emd S' (some T) := by
    intro S'
    simp only [EMD.prepareTime, List.length_map, EMD.normalizeTime_affine c d hc]
  exact ceemdan_time rng hs std fuel sp orderN orderT o hN S (T := some T) (T' := some (T.map (fun x => c * x + d)))
    ⟨fun _ S' _ => key S', fun S' _ => key S'⟩ m

end

/-- Runs with a time axis that is not the default one, with simple and with parabolic detection. -/
example : Sized EEMD.sampleRng ∧ (sampleObj sampleCfg).emd.detection = .simple ∧
    okWith (fun E => E.length == 3) ((sampleObj sampleCfg).ceemdan EEMD.sampleRng sampleStd 20 linSciPy [] [] EMD.sampleS
      (some (EMD.sampleS.map (fun x => x * x))) (-1)).1 = true ∧
    okWith (fun E => 2 ≤ E.length) (({ sampleObj sampleCfg with emd := { EMD.sampleFixe with detection := .parabol } } : Obj ℚ Nat).ceemdan
      EEMD.sampleRng sampleStd 20 linSciPy [] [] EMD.sampleS (some [0, 1, 3, 4, 5, 7, 8, 9, 11, 12]) 1).1 = true :=
  ⟨EEMD.sampleRng_sized, rfl, by decide +kernel, by decide +kernel⟩

/-- A time axis that matters: with parabolic detection the same signal on even time stamps has other components. -/
theorem C152_uneven : ∃ C C', (({ sampleObj sampleCfg with emd := { EMD.sampleFixe with detection := .parabol } } : Obj ℚ Nat).ceemdan
      EEMD.sampleRng sampleStd 20 linSciPy [] [] EMD.sampleS (some [0, 1, 3, 4, 5, 7, 8, 9, 11, 12]) 1).1 = .ok C ∧
    (({ sampleObj sampleCfg with emd := { EMD.sampleFixe with detection := .parabol } } : Obj ℚ Nat).ceemdan
      EEMD.sampleRng sampleStd 20 linSciPy [] [] EMD.sampleS none 1).1 = .ok C' ∧ C ≠ C' := by
  have h : okWith (fun C => okWith (fun C' => C != C') (({ sampleObj sampleCfg with emd := { EMD.sampleFixe with detection := .parabol } } : Obj ℚ Nat).ceemdan
      EEMD.sampleRng sampleStd 20 linSciPy [] [] EMD.sampleS none 1).1)
      (({ sampleObj sampleCfg with emd := { EMD.sampleFixe with detection := .parabol } } : Obj ℚ Nat).ceemdan
      EEMD.sampleRng sampleStd 20 linSciPy [] [] EMD.sampleS (some [0, 1, 3, 4, 5, 7, 8, 9, 11, 12]) 1).1 = true := by decide +kernel
  obtain ⟨C, hC, h⟩ := okWith_iff.1 h
  obtain ⟨C', hC', h⟩ := okWith_iff.1 h
  exact ⟨C, C', hC, hC', by simpa using h⟩

end CEEMDAN
end PyEMD
