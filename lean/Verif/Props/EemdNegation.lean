import Verif.Props.IeeeNegation
import Verif.Model.Ceemdan
import Verif.Spec.EemdSamples

/-!
# C150: the negated signal with the negated noise in `EEMD`
-/

set_option linter.unusedSectionVars false

namespace PyEMD
namespace EEMD
open EMD (vneg vneg_length vneg_vneg vadd_vneg vsub_vneg sumRows_vneg npMax_vneg npMin_vneg pyAbs_neg)
open EMD.Spec (OddAll)

section
variable {α ρ : Type} [Add α] [Sub α] [Mul α] [Div α] [Neg α] [LT α] [LE α] [BEq α] [DecidableLT α] [DecidableLE α] [NpScalar α] [Symmetric α]

/-- The second generator draws the noise of the first with the opposite sign (both distributions are symmetric). -/
structure Mirrored (rng rng' : Rng α ρ) : Prop where
  normal : ∀ r s n, rng'.normal r s n = (vneg (rng.normal r s n).1, (rng.normal r s n).2)
  uniform : ∀ r s n, rng'.uniform r (-s / lit 2) (s / lit 2) n =
    (vneg (rng.uniform r (-s / lit 2) (s / lit 2) n).1, (rng.uniform r (-s / lit 2) (s / lit 2) n).2)

/-- `Obj.emd` of the negated signal is the negated one, for any signal. -/
def NegatesAll (fuel : Nat) (sp : SciPy α) (cfg : EMD.Cfg α) : Prop :=
  ∀ S T m, RelE (fun r r' => r' = ({ rows := r.rows.map vneg, imfs := r.imfs.map vneg, residue := vneg r.residue } : EMD.Result α))
    (EMD.emdPure fuel sp cfg S T m) (EMD.emdPure fuel sp cfg (vneg S) T m)

/-- Result of a trial with the opposite sign. -/
def negOut (out : List (List α) × Option (List α)) : List (List α) × Option (List α) := (out.1.map vneg, out.2.map vneg)

/-- Components of the trials with the opposite sign. -/
def negDict (d : Dict (List (List α))) : Dict (List (List α)) := d.map (fun p => (p.1, p.2.map vneg))

theorem noise_neg {rng rng' : Rng α ρ} (hr : Mirrored rng rng') (kind : NoiseKind) (r : ρ) (s : α) (n : Nat) :
    generateNoise rng' kind r s n = ((generateNoise rng kind r s n).1.map vneg, (generateNoise rng kind r s n).2) := by
  cases kind with
  | normal => simp only [generateNoise, hr.normal]; rfl
  | uniform => simp only [generateNoise, hr.uniform]; rfl
  | unknown => rfl

theorem allclose0_vneg (l : List α) : allclose0 (vneg l) = allclose0 l := by
  simp [allclose0, vneg, Function.comp_def, pyAbs_neg]

theorem trend_neg (cfg : EMD.Cfg α) (imfs : List (List α)) (res : List α) :
    (EMD.Obj.getImfsAndTrend ⟨cfg, some (imfs.map vneg), some (vneg res)⟩) =
      (EMD.Obj.getImfsAndTrend ⟨cfg, some imfs, some res⟩).map (fun p => (p.1.map vneg, vneg p.2)) := by
  show (if allclose0 (vneg res) = true then pyGet (imfs.map vneg) (-1) >>= fun last => pure ((imfs.map vneg).dropLast, last)
      else pure (imfs.map vneg, vneg res)) =
    (if allclose0 res = true then pyGet imfs (-1) >>= fun last => pure (imfs.dropLast, last) else pure (imfs, res)).map _
  rw [allclose0_vneg]
  split
  · rw [pyGet_map, ← List.map_dropLast]
    cases pyGet imfs (-1) <;> rfl
  · rfl

/-- A trial once its noise is drawn. -/
def afterNoise (fuel : Nat) (sp : SciPy α) (sep : Bool) (S T : List α) (m : Int) (o : EMD.Obj α) (r : ρ) (noise : List α) :
    PyM (List (List α) × Option (List α)) × TrialState α ρ :=
  match EMD.emdPure fuel sp o.cfg (vadd S noise) (some T) m with
  | .error e => (.error e, { random := r, emd := o })
  | .ok R =>
    (if sep then (EMD.Obj.getImfsAndTrend ⟨o.cfg, some R.imfs, some R.residue⟩).map (fun p => (p.1, some p.2))
      else .ok (R.rows, none), { random := r, emd := ⟨o.cfg, some R.imfs, some R.residue⟩ })

theorem trialUpdate_pure (rng : Rng α ρ) (fuel : Nat) (sp : SciPy α) (cfg : Cfg α) (job : Job α) (st : TrialState α ρ) :
    trialUpdate rng fuel sp cfg job st =
      match generateNoise rng cfg.noiseKind st.random job.scale job.S.length with
      | (.error e, r) => (.error e, { st with random := r })
      | (.ok noise, r) => afterNoise fuel sp cfg.separateTrends job.S job.T job.maxImf st.emd r noise := by
  unfold trialUpdate
  cases hn : generateNoise rng cfg.noiseKind st.random job.scale job.S.length with
  | mk noise r =>
    cases noise with
    | error e => rfl
    | ok noise =>
      dsimp only
      unfold EMD.Obj.emd afterNoise
      cases h : EMD.emdPure fuel sp st.emd.cfg (vadd job.S noise) (some job.T) job.maxImf with
      | error e => simp only [h]
      | ok R =>
        simp only [h]
        by_cases hs : cfg.separateTrends = true
        · rw [if_pos hs, if_pos hs]
          cases EMD.Obj.getImfsAndTrend ⟨st.emd.cfg, some R.imfs, some R.residue⟩ <;> rfl
        · rw [if_neg hs, if_neg hs]

theorem afterNoise_neg {fuel : Nat} {sp : SciPy α} {ecfg : EMD.Cfg α} (hE : NegatesAll fuel sp ecfg) (sep : Bool) (S T : List α) (m : Int)
    (o o' : EMD.Obj α) (h2 : o.cfg = ecfg) (h3 : o'.cfg = ecfg) (r : ρ) (noise : List α) :
    RelE (fun a b => b = negOut a) (afterNoise fuel sp sep S T m o r noise).1 (afterNoise fuel sp sep (vneg S) T m o' r (vneg noise)).1 ∧
      (afterNoise fuel sp sep (vneg S) T m o' r (vneg noise)).2.random = (afterNoise fuel sp sep S T m o r noise).2.random ∧
      (afterNoise fuel sp sep S T m o r noise).2.emd.cfg = ecfg ∧ (afterNoise fuel sp sep (vneg S) T m o' r (vneg noise)).2.emd.cfg = ecfg := by
  unfold afterNoise
  have := hE (vadd S noise) (some T) m
  rw [vadd_vneg, h2, h3]
  cases h4 : EMD.emdPure fuel sp ecfg (vadd S noise) (some T) m with
  | error e =>
    cases h5 : EMD.emdPure fuel sp ecfg (vneg (vadd S noise)) (some T) m with
    | error e' => rw [h4, h5] at this; exact ⟨this, rfl, h2, h3⟩
    | ok R' => rw [h4, h5] at this; exact this.elim
  | ok R =>
    cases h5 : EMD.emdPure fuel sp ecfg (vneg (vadd S noise)) (some T) m with
    | error e' => rw [h4, h5] at this; exact this.elim
    | ok R' =>
      rw [h4, h5] at this
      have this : R' = _ := this
      subst this
      refine ⟨?_, rfl, rfl, rfl⟩
      dsimp only
      cases sep with
      | true =>
        rw [if_pos rfl, if_pos rfl, trend_neg]
        cases EMD.Obj.getImfsAndTrend ⟨ecfg, some R.imfs, some R.residue⟩ with
        | error e => exact Iff.rfl
        | ok p => exact (rfl : (p.1.map vneg, some (vneg p.2)) = negOut (p.1, some p.2))
      | false => exact (rfl : (R.rows.map vneg, none) = negOut (R.rows, none))

theorem trial_neg {rng rng' : Rng α ρ} (hr : Mirrored rng rng') {fuel : Nat} {sp : SciPy α} {ecfg : EMD.Cfg α} (hE : NegatesAll fuel sp ecfg)
    (cfg : Cfg α) (job : Job α) (st st' : TrialState α ρ) (h1 : st'.random = st.random) (h2 : st.emd.cfg = ecfg) (h3 : st'.emd.cfg = ecfg) :
    RelE (fun a b => b = negOut a) (trialUpdate rng fuel sp cfg job st).1 (trialUpdate rng' fuel sp cfg { job with S := vneg job.S } st').1 ∧
      (trialUpdate rng' fuel sp cfg { job with S := vneg job.S } st').2.random = (trialUpdate rng fuel sp cfg job st).2.random ∧
      (trialUpdate rng fuel sp cfg job st).2.emd.cfg = ecfg ∧
      (trialUpdate rng' fuel sp cfg { job with S := vneg job.S } st').2.emd.cfg = ecfg := by
  rw [trialUpdate_pure, trialUpdate_pure]
  dsimp only
  rw [vneg_length, noise_neg hr, h1]
  cases hn : generateNoise rng cfg.noiseKind st.random job.scale job.S.length with
  | mk noise r =>
    cases noise with
    | error e => exact ⟨Iff.rfl, rfl, h2, h3⟩
    | ok noise => exact afterNoise_neg hE cfg.separateTrends job.S job.T job.maxImf st.emd st'.emd h2 h3 r noise

theorem append_neg (d : Dict (List (List α))) (k : Int) (x : List α) : (negDict d).append k (vneg x) = negDict (d.append k x) := by
  induction d with
  | nil => rfl
  | cons p d ih =>
    obtain ⟨k', v⟩ := p
    show Dict.append ((k', v.map vneg) :: negDict d) k (vneg x) = _
    rw [Dict.append, Dict.append]
    split
    · simp [negDict]
    · rw [ih]; rfl

theorem addImfs_neg (imfs : List (List α)) : ∀ (d : Dict (List (List α))) (i : Nat),
    addImfs (negDict d) i (imfs.map vneg) = negDict (addImfs d i imfs) := by
  induction imfs with
  | nil => intro d i; rfl
  | cons x imfs ih =>
    intro d i
    rw [List.map_cons, addImfs, addImfs, append_neg, ih]

theorem addTrial_neg (d : Dict (List (List α))) (r : List (List α) × Option (List α)) : addTrial (negDict d) (negOut r) = negDict (addTrial d r) := by
  obtain ⟨imfs, trend⟩ := r
  cases trend with
  | none => exact addImfs_neg imfs d 0
  | some t =>
    show addImfs ((negDict d).append (-1) (vneg t)) 0 (imfs.map vneg) = _
    rw [append_neg, addImfs_neg]
    rfl

theorem runTrials_neg {rng rng' : Rng α ρ} (hr : Mirrored rng rng') {fuel : Nat} {sp : SciPy α} {ecfg : EMD.Cfg α} (hE : NegatesAll fuel sp ecfg)
    (cfg : Cfg α) (job : Job α) : ∀ (n : Nat) (st st' : TrialState α ρ) (d : Dict (List (List α))), st'.random = st.random → st.emd.cfg = ecfg →
      st'.emd.cfg = ecfg →
      RelE (fun _ _ => True) (runTrials rng fuel sp cfg job n st d).1 (runTrials rng' fuel sp cfg { job with S := vneg job.S } n st' (negDict d)).1 ∧
      (runTrials rng' fuel sp cfg { job with S := vneg job.S } n st' (negDict d)).2.1.random = (runTrials rng fuel sp cfg job n st d).2.1.random ∧
      (runTrials rng' fuel sp cfg { job with S := vneg job.S } n st' (negDict d)).2.2 = negDict (runTrials rng fuel sp cfg job n st d).2.2 := by
  intro n
  induction n with
  | zero => intro st st' d h1 h2 h3; exact ⟨trivial, h1, rfl⟩
  | succ n ih =>
    intro st st' d h1 h2 h3
    have h := trial_neg hr hE cfg job st st' h1 h2 h3
    rw [runTrials, runTrials]
    cases hp : trialUpdate rng fuel sp cfg job st with
    | mk a s =>
      cases hq : trialUpdate rng' fuel sp cfg { job with S := vneg job.S } st' with
      | mk b s' =>
        rw [hp, hq] at h
        obtain ⟨hrel, g1, g2, g3⟩ := h
        cases a with
        | error e =>
          cases b with
          | error e' => exact ⟨hrel, g1, rfl⟩
          | ok b => exact hrel.elim
        | ok a =>
          cases b with
          | error e' => exact hrel.elim
          | ok b =>
            have hrel : b = negOut a := hrel
            subst hrel
            dsimp only
            rw [addTrial_neg]
            exact ih s s' _ g1 g2 g3

theorem runChunk_neg {rng rng' : Rng α ρ} (hr : Mirrored rng rng') {fuel : Nat} {sp : SciPy α} {ecfg : EMD.Cfg α} (hE : NegatesAll fuel sp ecfg)
    (cfg : Cfg α) (job : Job α) : ∀ (n : Nat) (st st' : TrialState α ρ), st'.random = st.random → st.emd.cfg = ecfg → st'.emd.cfg = ecfg →
      RelE (fun a b => b = a.map negOut) (runChunk rng fuel sp cfg job n st) (runChunk rng' fuel sp cfg { job with S := vneg job.S } n st') := by
  intro n
  induction n with
  | zero => intro st st' h1 h2 h3; exact (rfl : ([] : List (List (List α) × Option (List α))) = _)
  | succ n ih =>
    intro st st' h1 h2 h3
    have h := trial_neg hr hE cfg job st st' h1 h2 h3
    rw [runChunk, runChunk]
    cases hp : trialUpdate rng fuel sp cfg job st with
    | mk a s =>
      cases hq : trialUpdate rng' fuel sp cfg { job with S := vneg job.S } st' with
      | mk b s' =>
        rw [hp, hq] at h
        obtain ⟨hrel, g1, g2, g3⟩ := h
        cases a with
        | error e =>
          cases b with
          | error e' => exact hrel
          | ok b => exact hrel.elim
        | ok a =>
          cases b with
          | error e' => exact hrel.elim
          | ok b =>
            have hrel : b = negOut a := hrel
            subst hrel
            dsimp only
            have hi := ih s s' g1 g2 g3
            cases hx : runChunk rng fuel sp cfg job n s with
            | error e =>
              cases hy : runChunk rng' fuel sp cfg { job with S := vneg job.S } n s' with
              | error e' => rw [hx, hy] at hi; exact hi
              | ok y => rw [hx, hy] at hi; exact hi.elim
            | ok x =>
              cases hy : runChunk rng' fuel sp cfg { job with S := vneg job.S } n s' with
              | error e' => rw [hx, hy] at hi; exact hi.elim
              | ok y =>
                rw [hx, hy] at hi
                have hi : y = x.map negOut := hi
                subst hi
                exact (rfl : negOut a :: x.map negOut = _)

/-- Errors of two lists of chunks that fail at the same places. -/
def ErrRel : Option PyErr → Option PyErr → Prop
  | none, none => True
  | some e, some e' => e = .outOfFuel ↔ e' = .outOfFuel
  | _, _ => False

theorem collect_rel {β γ : Type} (f : β → γ) {xs : List (PyM (List β))} {ys : List (PyM (List γ))}
    (h : List.Forall₂ (RelE (fun a b => b = a.map f)) xs ys) : ∀ (order : List Nat) (slots : List (List β)) (e e' : Option PyErr), ErrRel e e' →
      (collect ys (slots.map (List.map f)) e' order).1 = (collect xs slots e order).1.map (List.map f) ∧
      ErrRel (collect xs slots e order).2 (collect ys (slots.map (List.map f)) e' order).2 := by
  intro order
  induction order with
  | nil => intro slots e e' he; exact ⟨rfl, he⟩
  | cons i order ih =>
    intro slots e e' he
    have hnone : e.isNone = e'.isNone := by cases e <;> cases e' <;> first | rfl | exact he.elim
    rw [collect, collect]
    cases hx : xs[i]? with
    | none =>
      have : ys[i]? = none := by
        rw [List.getElem?_eq_none_iff] at hx ⊢
        rw [← h.length_eq]; exact hx
      rw [this]
      exact ih slots e e' he
    | some x =>
      have hlt : i < xs.length := (List.getElem?_eq_some_iff.1 hx).1
      have hlt' : i < ys.length := by rw [← h.length_eq]; exact hlt
      have hy : ys[i]? = some ys[i] := List.getElem?_eq_getElem hlt'
      have hrel : RelE (fun a b => b = a.map f) x ys[i] := by
        have := (List.forall₂_iff_get.1 h).2 i hlt hlt'
        have hxe : xs[i] = x := by
          have := List.getElem?_eq_getElem hlt
          rw [hx] at this
          exact (Option.some.inj this).symm
        rw [List.get_eq_getElem, List.get_eq_getElem, hxe] at this
        exact this
      rw [hy]
      cases x with
      | error er =>
        cases hyy : ys[i] with
        | ok y => rw [hyy] at hrel; exact hrel.elim
        | error er' =>
          rw [hyy] at hrel
          dsimp only
          rw [← hnone]
          refine ih slots _ _ ?_
          cases hn : e.isNone with
          | true => exact hrel
          | false => exact he
      | ok x =>
        cases hyy : ys[i] with
        | error er' => rw [hyy] at hrel; exact hrel.elim
        | ok y =>
          rw [hyy] at hrel
          have hrel : y = x.map f := hrel
          subst hrel
          dsimp only
          rw [← hnone]
          cases hn : e.isNone with
          | true =>
            have := ih (slots.set i x) e e' he
            rw [List.map_set] at this
            exact this
          | false => exact ih slots e e' he

theorem poolMap_rel {β γ : Type} (f : β → γ) {xs : List (PyM (List β))} {ys : List (PyM (List γ))}
    (h : List.Forall₂ (RelE (fun a b => b = a.map f)) xs ys) (order : List Nat) :
    RelE (fun a b => b = a.map f) (poolMap xs order) (poolMap ys order) := by
  have := collect_rel f h order (List.replicate xs.length []) none none trivial
  rw [List.map_replicate, List.map_nil, h.length_eq] at this
  unfold poolMap
  rw [h.length_eq]
  cases hx : collect xs (List.replicate ys.length []) none order with
  | mk s e =>
    cases hy : collect ys (List.replicate ys.length []) none order with
    | mk s' e' =>
      rw [hx, hy] at this
      obtain ⟨h1, h2⟩ := this
      have h1 : s' = s.map (List.map f) := h1
      subst h1
      cases e with
      | none =>
        cases e' with
        | none => exact (List.map_flatten.symm : (s.map (List.map f)).flatten = _)
        | some _ => exact h2.elim
      | some e =>
        cases e' with
        | none => exact h2.elim
        | some _ => exact h2

theorem lookup_negDict (d : Dict (List (List α))) (k : Int) : (negDict d).lookup k = (d.lookup k).map (List.map vneg) := by
  induction d with
  | nil => rfl
  | cons p d ih =>
    obtain ⟨k', v⟩ := p
    show List.lookup k ((k', v.map vneg) :: negDict d) = _
    rw [List.lookup_cons, List.lookup_cons, ih]
    split <;> rfl

theorem renameTrend_neg (d : Dict (List (List α))) : renameTrend (negDict d) = negDict (renameTrend d) := by
  unfold renameTrend
  rw [lookup_negDict]
  cases d.lookup (-1) with
  | none => rfl
  | some v =>
    have : (negDict d).filter (fun p => p.1 != -1) = negDict (d.filter (fun p => p.1 != -1)) := by
      unfold negDict
      rw [List.filter_map]
      rfl
    simp only [Option.map_some, this]
    simp [negDict]

theorem meanRows_neg (n : Nat) (rows : List (List α)) : meanRows n (rows.map vneg) = vneg (meanRows n rows) := by
  unfold meanRows
  rw [sumRows_vneg, List.length_map]
  simp only [vneg, List.map_map]
  apply List.map_congr_left
  intro x _
  exact Symmetric.neg_div _ _

theorem mean_neg (n : Nat) (d : Dict (List (List α))) : ensembleMean n (negDict d) = (ensembleMean n d).map vneg := by
  unfold ensembleMean negDict
  rw [List.map_map, List.map_map]
  apply List.map_congr_left
  intro p _
  exact meanRows_neg n p.2

theorem prepare_neg (cfg : Cfg α) (S : List α) (T : Option (List α)) (m : Int) :
    prepare cfg (vneg S) T m = (prepare cfg S T m).map (fun job => { job with S := vneg job.S }) := by
  unfold prepare
  rw [vneg_length]
  cases hS : S with
  | nil => cases T <;> rfl
  | cons x l =>
    have hne : x :: l ≠ [] := by simp
    have h1 : npMaxE (vneg (x :: l)) = .ok (-npMin (x :: l)) := by
      rw [← npMax_vneg hne]; rfl
    have h2 : npMinE (vneg (x :: l)) = .ok (-npMax (x :: l)) := by
      rw [← npMin_vneg hne]; rfl
    rw [h1, h2]
    have key : ∀ t : List α, (Except.ok { S := vneg (x :: l), T := t, scale := cfg.noiseWidth * pyAbs (-npMin (x :: l) - -npMax (x :: l)), maxImf := m } : PyM (Job α)) =
        Except.map (fun job => { job with S := vneg job.S })
          (Except.ok { S := x :: l, T := t, scale := cfg.noiseWidth * pyAbs (npMax (x :: l) - npMin (x :: l)), maxImf := m } : PyM (Job α)) := by
      intro t
      rw [Symmetric.neg_sub_neg]
      rfl
    cases T with
    | some t => exact key t
    | none =>
      cases h3 : (EMD.timeline (x :: l).length : PyM (List α)) with
      | error e => rfl
      | ok t => exact key t

theorem prepare_signal {cfg : Cfg α} {S : List α} {T : Option (List α)} {m : Int} {job : Job α} (h : prepare cfg S T m = .ok job) : job.S = S := by
  unfold prepare at h
  cases S with
  | nil => cases T <;> cases h
  | cons x l =>
    have h1 : npMaxE (x :: l) = .ok (npMax (x :: l)) := rfl
    have h2 : npMinE (x :: l) = .ok (npMin (x :: l)) := rfl
    rw [h1, h2] at h
    cases T with
    | some t => cases h; rfl
    | none =>
      cases h3 : (EMD.timeline (x :: l).length : PyM (List α)) with
      | error e => rw [h3] at h; cases h
      | ok t => rw [h3] at h; cases h; rfl

/-- The run on the negated signal with the negated noise, for objects in which only the remembered results differ. -/
theorem eemd_neg {rng rng' : Rng α ρ} (hr : Mirrored rng rng') {fuel : Nat} {sp : SciPy α} (o : Obj α ρ) (hE : NegatesAll fuel sp o.emd.cfg)
    (order : List Nat) (S : List α) (T : Option (List α)) (m : Int) :
    RelE (fun E E' => E' = E.map vneg) (o.eemd rng fuel sp order S T m).1 (o.eemd rng' fuel sp order (vneg S) T m).1 ∧
    (o.eemd rng' fuel sp order (vneg S) T m).2.random = (o.eemd rng fuel sp order S T m).2.random ∧
    (∀ E, (o.eemd rng fuel sp order S T m).1 = .ok E →
      (o.eemd rng' fuel sp order (vneg S) T m).2.allImfs = negDict (o.eemd rng fuel sp order S T m).2.allImfs ∧
      (o.eemd rng' fuel sp order (vneg S) T m).2.E_IMF = (o.eemd rng fuel sp order S T m).2.E_IMF.map (List.map vneg) ∧
      (o.eemd rng' fuel sp order (vneg S) T m).2.residue = (o.eemd rng fuel sp order S T m).2.residue.map vneg) := by
  have hfin : ∀ (o₁ o₂ : Obj α ρ) (d : Dict (List (List α))), o₂.random = o₁.random →
      RelE (fun E E' => E' = E.map vneg) (finish S o₁ d).1 (finish (vneg S) o₂ (negDict d)).1 ∧
      (finish (vneg S) o₂ (negDict d)).2.random = (finish S o₁ d).2.random ∧
      (∀ E, (finish S o₁ d).1 = .ok E → (finish (vneg S) o₂ (negDict d)).2.allImfs = negDict (finish S o₁ d).2.allImfs ∧
        (finish (vneg S) o₂ (negDict d)).2.E_IMF = (finish S o₁ d).2.E_IMF.map (List.map vneg) ∧
        (finish (vneg S) o₂ (negDict d)).2.residue = (finish S o₁ d).2.residue.map vneg) := by
    intro o₁ o₂ d hrand
    unfold finish
    dsimp only
    rw [renameTrend_neg, vneg_length, mean_neg, sumRows_vneg, vsub_vneg]
    exact ⟨(rfl : List.map vneg _ = List.map vneg (ensembleMean S.length (renameTrend d))), hrand, fun E _ => ⟨rfl, rfl, rfl⟩⟩
  unfold Obj.eemd
  rw [prepare_neg]
  cases hp : prepare o.cfg S T m with
  | error e => exact ⟨Iff.rfl, rfl, fun E h => by cases h⟩
  | ok job =>
    have hjob := prepare_signal hp
    subst hjob
    cases hpar : o.cfg.parallel with
    | true =>
      have hch : List.Forall₂ (RelE (fun a b => b = a.map negOut))
          ((chunkLengths o.cfg.trials (chunkSize o.cfg.trials o.cfg.processes)).map (fun n => runChunk rng fuel sp o.cfg job n { random := o.random, emd := o.emd }))
          ((chunkLengths o.cfg.trials (chunkSize o.cfg.trials o.cfg.processes)).map
            (fun n => runChunk rng' fuel sp o.cfg { job with S := vneg job.S } n { random := o.random, emd := o.emd })) := by
        induction chunkLengths o.cfg.trials (chunkSize o.cfg.trials o.cfg.processes) with
        | nil => exact .nil
        | cons n ns ih => exact .cons (runChunk_neg hr hE o.cfg job n _ _ rfl rfl rfl) ih
      have hpool := poolMap_rel negOut hch order
      simp only [Except.map, if_true]
      generalize poolMap _ order = x at hpool ⊢
      generalize poolMap _ order = y at hpool ⊢
      cases x with
      | error e =>
        cases y with
        | error e' => exact ⟨hpool, rfl, fun E h => by cases h⟩
        | ok y => exact hpool.elim
      | ok x =>
        cases y with
        | error e' => exact hpool.elim
        | ok y =>
          have hpool : y = x.map negOut := hpool
          subst hpool
          have hd : (x.map negOut).foldl addTrial [] = negDict (x.foldl addTrial []) := by
            have : ∀ (x : List (List (List α) × Option (List α))) (d : Dict (List (List α))),
                (x.map negOut).foldl addTrial (negDict d) = negDict (x.foldl addTrial d) := by
              intro x
              induction x with
              | nil => intro d; rfl
              | cons a x ih => intro d; rw [List.map_cons, List.foldl_cons, List.foldl_cons, addTrial_neg, ih]
            exact this x []
          dsimp only
          rw [hd]
          exact hfin o o _ rfl
    | false =>
      have hrun := runTrials_neg hr hE o.cfg job o.cfg.trials { random := o.random, emd := o.emd } { random := o.random, emd := o.emd } [] rfl rfl rfl
      simp only [Except.map, Bool.false_eq_true, if_false]
      rw [show negDict ([] : Dict (List (List α))) = [] from rfl] at hrun
      generalize runTrials rng fuel sp o.cfg job o.cfg.trials { random := o.random, emd := o.emd } [] = x at hrun ⊢
      generalize runTrials rng' fuel sp o.cfg { job with S := vneg job.S } o.cfg.trials { random := o.random, emd := o.emd } [] = y at hrun ⊢
      obtain ⟨x, st, d⟩ := x
      obtain ⟨y, st', d'⟩ := y
      obtain ⟨g1, g2, g3⟩ := hrun
      dsimp only at g1 g2 g3
      subst g3
      cases x with
      | error e =>
        cases y with
        | error e' => exact ⟨g1, g2, fun E h => by cases h⟩
        | ok y => exact g1.elim
      | ok x =>
        cases y with
        | error e' => exact g1.elim
        | ok y => exact hfin _ _ d g2

theorem std_neg (sqrt : α → α) (n : Nat) (d : Dict (List (List α))) : ensembleStd sqrt n (negDict d) = ensembleStd sqrt n d := by
  unfold ensembleStd negDict
  rw [List.map_map]
  apply List.map_congr_left
  intro p _
  show stdRows sqrt n (p.2.map vneg) = stdRows sqrt n p.2
  unfold stdRows
  dsimp only
  rw [meanRows_neg, List.map_map]
  congr 2
  apply List.map_congr_left
  intro r _
  simp only [Function.comp, vneg, List.zipWith_map, EMD.sub_neg_neg, EMD.mul_neg_neg]

/-- Statement of C150 for one object: what the run with the negated noise on the negated signal gives. -/
def MirrorRun (rng rng' : Rng α ρ) (fuel : Nat) (sp : SciPy α) (order : List Nat) (o : Obj α ρ) (S : List α) (T : Option (List α)) (m : Int) : Prop :=
  (∀ E o₁, o.eemd rng fuel sp order S T m = (.ok E, o₁) → ∃ o₂,
    o.eemd rng' fuel sp order (S.map (fun x => -x)) T m = (.ok (E.map (fun r => r.map (fun x => -x))), o₂) ∧
    o₂.random = o₁.random ∧
    o₂.allImfs = o₁.allImfs.map (fun p => (p.1, p.2.map (fun r => r.map (fun x => -x)))) ∧
    o₂.E_IMF = o₁.E_IMF.map (fun E => E.map (fun r => r.map (fun x => -x))) ∧
    o₂.residue = o₁.residue.map (fun r => r.map (fun x => -x)) ∧
    ∀ sqrt, ensembleStd sqrt S.length o₂.allImfs = ensembleStd sqrt S.length o₁.allImfs) ∧
  ((∃ e, e ≠ .outOfFuel ∧ (o.eemd rng fuel sp order S T m).1 = .error e) ↔
    (∃ e, e ≠ .outOfFuel ∧ (o.eemd rng' fuel sp order (S.map (fun x => -x)) T m).1 = .error e))

theorem mirrorRun {rng rng' : Rng α ρ} (hr : Mirrored rng rng') {fuel : Nat} {sp : SciPy α} (o : Obj α ρ) (hE : NegatesAll fuel sp o.emd.cfg)
    (order : List Nat) (S : List α) (T : Option (List α)) (m : Int) : MirrorRun rng rng' fuel sp order o S T m := by
  obtain ⟨h1, h2, h3⟩ := eemd_neg hr o hE order S T m
  unfold vneg at h1 h2 h3
  unfold MirrorRun
  cases hp : o.eemd rng fuel sp order S T m with
  | mk x o₁ =>
    cases hq : o.eemd rng' fuel sp order (S.map (fun x => -x)) T m with
    | mk y o₂ =>
      rw [hp, hq] at h1 h2 h3
      cases x with
      | ok E =>
        cases y with
        | error e => exact h1.elim
        | ok E' =>
          have h1 : E' = _ := h1
          subst h1
          refine ⟨?_, by simp⟩
          intro E₁ o₁' h
          obtain ⟨ha, hb⟩ := Prod.mk.inj h
          injection ha with ha
          subst ha
          subst hb
          obtain ⟨g1, g2, g3⟩ := h3 E rfl
          refine ⟨o₂, rfl, h2, g1, g2, g3, fun sqrt => ?_⟩
          have g1 : o₂.allImfs = negDict o₁.allImfs := g1
          rw [g1]
          exact std_neg sqrt _ _
      | error e =>
        cases y with
        | ok E' => exact h1.elim
        | error e' =>
          have h1 : e = .outOfFuel ↔ e' = .outOfFuel := h1
          refine ⟨fun E o₁' h => (by cases (Prod.mk.inj h).1), ?_⟩
          constructor
          · rintro ⟨e₁, hn, he⟩
            injection he with he
            subst he
            exact ⟨e', fun hc => hn (h1.2 hc), rfl⟩
          · rintro ⟨e₁, hn, he⟩
            injection he with he
            subst he
            exact ⟨e, fun hc => hn (h1.1 hc), rfl⟩

/-- The generator with the opposite sign. -/
def mirror (rng : Rng α ρ) : Rng α ρ where
  normal r s n := (vneg (rng.normal r s n).1, (rng.normal r s n).2)
  uniform r a b n := (vneg (rng.uniform r (-b) (-a) n).1, (rng.uniform r (-b) (-a) n).2)
  seed := rng.seed

theorem mirrored_mirror (rng : Rng α ρ) : Mirrored rng (mirror rng) := by
  refine ⟨fun r s n => rfl, fun r s n => ?_⟩
  show (vneg (rng.uniform r (-(s / lit 2)) (-(-s / lit 2)) n).1, (rng.uniform r (-(s / lit 2)) (-(-s / lit 2)) n).2) = _
  rw [Symmetric.neg_div, Symmetric.neg_neg]

end

section
variable {K ρ : Type} [Field K] [LinearOrder K] [IsStrictOrderedRing K] [FloorRing K]

theorem negatesAll (fuel : Nat) {sp : SciPy K} (ho : OddAll sp) {cfg : EMD.Cfg K} (hd : cfg.detection = .simple) : NegatesAll fuel sp cfg := by
  intro S T m
  refine EMD.emdPure_vneg fuel ho hd S T (fun T' hT' => ?_) m
  rw [(EMD.prepareTime_cases cfg hd S T).2 T' hT']
  have : (EMD.timeArr S.length : List K).map toInt = (List.range S.length).map (fun k : Nat => (k : Int)) := by
    rw [EMD.timeArr, List.map_map]
    apply List.map_congr_left
    intro k _
    exact EMD.toInt_natCast k
  rw [this]
  exact List.nodup_range.map (fun a b h => by exact_mod_cast h)

/-- **C150**: `EEMD` of the negated signal with the negated noise gives the negated rows, remembers the negated components of all trials and the negated
residue, has the same spread, and raises exactly when the original run raises: sequentially or in parallel, with or without separated trends, for any
schedule and number of trials. -/
theorem C150_negation (rng rng' : Rng K ρ) (hr : Mirrored rng rng') (fuel : Nat) (sp : SciPy K) (ho : OddAll sp) (order : List Nat) (o : Obj K ρ)
    (hd : o.emd.cfg.detection = .simple) (S : List K) (T : Option (List K)) (m : Int) : MirrorRun rng rng' fuel sp order o S T m :=
  mirrorRun hr o (negatesAll fuel ho hd) order S T m

end

open Ieee in
/-- **C150 in floating point**: the same, number by number, in every IEEE 754 format. -/
theorem C150_floating_point {f e E : Nat} {ρ : Type} (hf : 1 ≤ f) (hE : f + 2 ≤ E) (rng rng' : Rng (Ieee f e E) ρ) (hr : Mirrored rng rng') (fuel : Nat)
    (sp : SciPy (Ieee f e E)) (ho : OddAll sp) (order : List Nat) (o : Obj (Ieee f e E) ρ) (hd : o.emd.cfg.detection = .simple)
    (S : List (Ieee f e E)) (T : Option (List (Ieee f e E))) (m : Int) : MirrorRun rng rng' fuel sp order o S T m :=
  mirrorRun hr o (fun S T m => EMD.emdPure_vneg fuel ho hd S T (stamps_nodup hf hE o.emd.cfg hd S T) m) order S T m

/-- Three trials with noise. -/
example : Mirrored sampleRng (mirror sampleRng) ∧ OddAll (linSciPy : SciPy ℚ) ∧
    okWith (fun E : List (List ℚ) => E.length == 2)
      ((sampleObj sampleCfg).eemd sampleRng 20 linSciPy [] sampleS none (-1)).1 = true :=
  ⟨mirrored_mirror _, EMD.linSciPy_odd, by decide +kernel⟩

/-- With the same noise, drawn from the same state of the generator, the rows are not the negated ones: not even their number is the same for this signal. -/
theorem C150_same_noise : OddAll (linSciPy : SciPy ℚ) ∧ (sampleObj sampleCfg).emd.cfg.detection = .simple ∧
    ∃ E E', ((sampleObj sampleCfg).eemd sampleRng 20 linSciPy [] sampleS none (-1)).1 = .ok E ∧
      ((sampleObj sampleCfg).eemd sampleRng 20 linSciPy [] (sampleS.map (fun x => -x)) none (-1)).1 = .ok E' ∧
      E' ≠ E.map (fun r => r.map (fun x => -x)) := by
  have h : okWith (fun E => okWith (fun E' => E' != E.map (fun r => r.map (fun x => -x)))
      ((sampleObj sampleCfg).eemd sampleRng 20 linSciPy [] (sampleS.map (fun x => -x)) none (-1)).1)
    ((sampleObj sampleCfg).eemd sampleRng 20 linSciPy [] sampleS none (-1)).1 = true := by decide +kernel
  obtain ⟨E, hE, h⟩ := okWith_iff.1 h
  obtain ⟨E', hE', h⟩ := okWith_iff.1 h
  exact ⟨EMD.linSciPy_odd, rfl, E, E', hE, hE', by simpa using h⟩

end EEMD
end PyEMD
