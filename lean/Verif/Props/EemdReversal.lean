import Verif.Props.Reversal
import Verif.Props.EemdNegation
import Verif.Props.Eemd

/-!
# C161: the direction of time in `EEMD`
-/

set_option linter.unusedSectionVars false

namespace PyEMD
namespace EEMD
open Spec
open EMD (timeArr vadd_reverse vsub_reverse sumRows_reverse npMax_reverse npMin_reverse)
open EMD.Spec (ReversibleAll Occurs NoTies)

variable {K ρ : Type} [Field K] [LinearOrder K] [IsStrictOrderedRing K] [FloorRing K]

/-- The second generator draws the noise of the first run backwards. -/
structure Backwards (rng rng' : Rng K ρ) : Prop where
  normal : ∀ r s n, rng'.normal r s n = ((rng.normal r s n).1.reverse, (rng.normal r s n).2)
  uniform : ∀ r a b n, rng'.uniform r a b n = ((rng.uniform r a b n).1.reverse, (rng.uniform r a b n).2)

/-- In the decomposition of the signal plus `noise` no proto-mode has two equal neighbouring samples. -/
def Untied (sp : SciPy K) (cfg : EMD.Cfg K) (S : List K) (m : Int) (noise : List K) : Prop :=
  ∀ x, Occurs sp cfg ((List.range S.length).map (fun k : Nat => (k : K))) (List.zipWith (fun s x => s + x) S noise) m [] (-1) x → NoTies x

/-- The first `t` draws from state `r` satisfy `P`. -/
def DrawsAll (rng : Rng K ρ) (kind : NoiseKind) (scale : K) (n : Nat) (r : ρ) (t : Nat) (P : List K → Prop) : Prop :=
  ∀ xs r', Stream rng kind scale n r xs r' → xs.length ≤ t → ∀ x ∈ xs, P x

theorem DrawsAll.head {rng : Rng K ρ} {kind : NoiseKind} {scale : K} {n : Nat} {r r₁ : ρ} {t : Nat} {P : List K → Prop} {x : List K}
    (h : DrawsAll rng kind scale n r (t + 1) P) (hd : Draw rng kind scale n r x r₁) : P x :=
  h [x] r₁ (.cons hd (.nil _)) (by simp) x (by simp)

theorem DrawsAll.tail {rng : Rng K ρ} {kind : NoiseKind} {scale : K} {n : Nat} {r r₁ : ρ} {t : Nat} {P : List K → Prop} {x : List K}
    (h : DrawsAll rng kind scale n r (t + 1) P) (hd : Draw rng kind scale n r x r₁) : DrawsAll rng kind scale n r₁ t P :=
  fun xs r' hs hl y hy => h (x :: xs) r' (.cons hd hs) (by simp; omega) y (by simp [hy])

theorem DrawsAll.mono {rng : Rng K ρ} {kind : NoiseKind} {scale : K} {n : Nat} {r : ρ} {t t' : Nat} {P : List K → Prop}
    (h : DrawsAll rng kind scale n r t P) (ht : t' ≤ t) : DrawsAll rng kind scale n r t' P :=
  fun xs r' hs hl => h xs r' hs (hl.trans ht)

/-- Result of a trial run backwards. -/
def revOut (out : List (List K) × Option (List K)) : List (List K) × Option (List K) := (out.1.map List.reverse, out.2.map List.reverse)

/-- Components of the trials run backwards. -/
def revDict (d : Dict (List (List K))) : Dict (List (List K)) := d.map (fun p => (p.1, p.2.map List.reverse))

/-- Rows of a trial have `n` samples. -/
def LenOut (n : Nat) (out : List (List K) × Option (List K)) : Prop := (∀ r ∈ out.1, r.length = n) ∧ ∀ t ∈ out.2, t.length = n

/-- All components have `n` samples. -/
def LenDict (n : Nat) (d : Dict (List (List K))) : Prop := ∀ p ∈ d, ∀ r ∈ p.2, r.length = n

theorem noise_rev {rng rng' : Rng K ρ} (hr : Backwards rng rng') (kind : NoiseKind) (r : ρ) (s : K) (n : Nat) :
    generateNoise rng' kind r s n = ((generateNoise rng kind r s n).1.map List.reverse, (generateNoise rng kind r s n).2) := by
  cases kind with
  | normal => simp only [generateNoise, hr.normal]; rfl
  | uniform => simp only [generateNoise, hr.uniform]; rfl
  | unknown => rfl

theorem allclose0_reverse (l : List K) : allclose0 l.reverse = allclose0 l := by
  simp [allclose0]

theorem trend_rev (cfg : EMD.Cfg K) (imfs : List (List K)) (res : List K) :
    (EMD.Obj.getImfsAndTrend ⟨cfg, some (imfs.map List.reverse), some res.reverse⟩) =
      (EMD.Obj.getImfsAndTrend ⟨cfg, some imfs, some res⟩).map (fun p => (p.1.map List.reverse, p.2.reverse)) := by
  show (if allclose0 res.reverse = true then pyGet (imfs.map List.reverse) (-1) >>= fun last => pure ((imfs.map List.reverse).dropLast, last)
      else pure (imfs.map List.reverse, res.reverse)) =
    (if allclose0 res = true then pyGet imfs (-1) >>= fun last => pure (imfs.dropLast, last) else pure (imfs, res)).map _
  rw [allclose0_reverse]
  split
  · rw [pyGet_map, ← List.map_dropLast]
    cases pyGet imfs (-1) <;> rfl
  · rfl

/-- What is needed of a trial. -/
structure Sound (fuel : Nat) (sp : SciPy K) (ecfg : EMD.Cfg K) : Prop where
  rev : ReversibleAll sp
  simple : ecfg.detection = .simple
  nbsym : 1 ≤ ecfg.nbsym

theorem afterNoise_rev {fuel : Nat} {sp : SciPy K} {ecfg : EMD.Cfg K} (hE : Sound fuel sp ecfg) (sep : Bool) (S T : List K) (m : Int)
    (o o' : EMD.Obj K) (h2 : o.cfg = ecfg) (h3 : o'.cfg = ecfg) (r : ρ) (noise : List K) (hl : noise.length = S.length) (hu : Untied sp ecfg S m noise) :
    (afterNoise fuel sp sep S.reverse T m o' r noise.reverse).1 = (afterNoise fuel sp sep S T m o r noise).1.map revOut ∧
      (afterNoise fuel sp sep S.reverse T m o' r noise.reverse).2.random = (afterNoise fuel sp sep S T m o r noise).2.random ∧
      (afterNoise fuel sp sep S T m o r noise).2.emd.cfg = ecfg ∧ (afterNoise fuel sp sep S.reverse T m o' r noise.reverse).2.emd.cfg = ecfg ∧
      ∀ out, (afterNoise fuel sp sep S T m o r noise).1 = .ok out → LenOut S.length out := by
  have hlen : (vadd S noise).length = S.length := by simp [vadd, hl]
  have hsim := EMD.emdPure_reverse fuel hE.rev hE.simple hE.nbsym (vadd S noise) (some T) m (by rw [hlen]; exact hu)
  have htr : ∀ out, (afterNoise fuel sp sep S T m o r noise).1 = .ok out → LenOut S.length out := by
    intro out h
    refine TrialOf.lengths (fuel := fuel) (sp := sp) (sep := sep) (ecfg := o.cfg) (T := T) (m := m) (noise := noise) ?_ hl
    unfold afterNoise at h
    cases h4 : EMD.emdPure fuel sp o.cfg (vadd S noise) (some T) m with
    | error e => rw [h4] at h; cases h
    | ok R =>
      rw [h4] at h
      dsimp only at h
      refine ⟨R, h4, ?_, ?_⟩
      · rintro rfl
        exact (Except.ok.inj h).symm
      · rintro rfl
        rw [if_pos rfl] at h
        cases h5 : EMD.Obj.getImfsAndTrend ⟨o.cfg, some R.imfs, some R.residue⟩ with
        | error e => rw [h5] at h; cases h
        | ok p => rw [h5] at h; exact ⟨p.1, p.2, rfl, (Except.ok.inj h).symm⟩
  refine ⟨?_, ?_⟩
  · unfold afterNoise
    rw [vadd_reverse hl.symm, h2, h3]
    cases h4 : EMD.emdPure fuel sp ecfg (vadd S noise) (some T) m with
    | error e =>
      cases h5 : EMD.emdPure fuel sp ecfg (vadd S noise).reverse (some T) m with
      | error e' => rw [h4, h5] at hsim; exact congrArg Except.error (Eq.symm hsim)
      | ok R' => rw [h4, h5] at hsim; exact hsim.elim
    | ok R =>
      cases h5 : EMD.emdPure fuel sp ecfg (vadd S noise).reverse (some T) m with
      | error e' => rw [h4, h5] at hsim; exact hsim.elim
      | ok R' =>
        rw [h4, h5] at hsim
        obtain ⟨g1, g2, g3⟩ := hsim
        dsimp only
        cases sep with
        | true =>
          rw [if_pos rfl, if_pos rfl, g2, g3, trend_rev]
          cases EMD.Obj.getImfsAndTrend ⟨ecfg, some R.imfs, some R.residue⟩ <;> rfl
        | false =>
          rw [g1]
          rfl
  · refine ⟨?_, ?_, ?_, htr⟩
    · unfold afterNoise
      cases EMD.emdPure fuel sp o.cfg (vadd S noise) (some T) m <;>
      cases EMD.emdPure fuel sp o'.cfg (vadd S.reverse noise.reverse) (some T) m <;> rfl
    · unfold afterNoise
      cases EMD.emdPure fuel sp o.cfg (vadd S noise) (some T) m <;> exact h2
    · unfold afterNoise
      cases EMD.emdPure fuel sp o'.cfg (vadd S.reverse noise.reverse) (some T) m <;> exact h3

theorem trial_rev {rng rng' : Rng K ρ} (hr : Backwards rng rng') (hz : Sized rng) {fuel : Nat} {sp : SciPy K} {ecfg : EMD.Cfg K} (hE : Sound fuel sp ecfg)
    (cfg : Cfg K) (job : Job K) (st st' : TrialState K ρ) (h1 : st'.random = st.random) (h2 : st.emd.cfg = ecfg) (h3 : st'.emd.cfg = ecfg) (t : Nat)
    (hu : DrawsAll rng cfg.noiseKind job.scale job.S.length st.random (t + 1) (Untied sp ecfg job.S job.maxImf)) :
    (trialUpdate rng' fuel sp cfg { job with S := job.S.reverse } st').1 = (trialUpdate rng fuel sp cfg job st).1.map revOut ∧
      (trialUpdate rng' fuel sp cfg { job with S := job.S.reverse } st').2.random = (trialUpdate rng fuel sp cfg job st).2.random ∧
      (trialUpdate rng fuel sp cfg job st).2.emd.cfg = ecfg ∧
      (trialUpdate rng' fuel sp cfg { job with S := job.S.reverse } st').2.emd.cfg = ecfg ∧
      ∀ out, (trialUpdate rng fuel sp cfg job st).1 = .ok out → LenOut job.S.length out ∧
        DrawsAll rng cfg.noiseKind job.scale job.S.length (trialUpdate rng fuel sp cfg job st).2.random t (Untied sp ecfg job.S job.maxImf) := by
  rw [trialUpdate_pure, trialUpdate_pure]
  dsimp only
  rw [List.length_reverse, noise_rev hr, h1]
  cases hn : generateNoise rng cfg.noiseKind st.random job.scale job.S.length with
  | mk noise r =>
    cases noise with
    | error e => exact ⟨rfl, rfl, h2, h3, fun out h => by cases h⟩
    | ok noise =>
      have hd : Draw rng cfg.noiseKind job.scale job.S.length st.random noise r := by
        have := generateNoise_ok (rng := rng) (kind := cfg.noiseKind) (r := st.random) (scale := job.scale) (n := job.S.length) (x := noise) (by rw [hn])
        rw [hn] at this
        exact this
      have hl : noise.length = job.S.length := by
        rcases hd with ⟨-, h⟩ | ⟨-, h⟩
        · have := hz.1 st.random job.scale job.S.length
          rw [h] at this; exact this
        · have := hz.2 st.random (-job.scale / lit 2) (job.scale / lit 2) job.S.length
          rw [h] at this; exact this
      obtain ⟨g1, g2, g3, g4, g5⟩ := afterNoise_rev hE cfg.separateTrends job.S job.T job.maxImf st.emd st'.emd h2 h3 r noise hl (hu.head hd)
      refine ⟨g1, g2, g3, g4, fun out h => ⟨g5 out h, ?_⟩⟩
      have hrand : (afterNoise fuel sp cfg.separateTrends job.S job.T job.maxImf st.emd r noise).2.random = r := by
        unfold afterNoise
        cases EMD.emdPure fuel sp st.emd.cfg (vadd job.S noise) (some job.T) job.maxImf <;> rfl
      rw [hrand]
      exact hu.tail hd

theorem append_rev (d : Dict (List (List K))) (k : Int) (x : List K) : (revDict d).append k x.reverse = revDict (d.append k x) := by
  induction d with
  | nil => rfl
  | cons p d ih =>
    obtain ⟨k', v⟩ := p
    show Dict.append ((k', v.map List.reverse) :: revDict d) k x.reverse = _
    rw [Dict.append, Dict.append]
    split
    · simp [revDict]
    · rw [ih]; rfl

theorem append_len {n : Nat} {d : Dict (List (List K))} (h : LenDict n d) (k : Int) {x : List K} (hx : x.length = n) : LenDict n (d.append k x) := by
  induction d with
  | nil =>
    intro p hp r hr
    simp only [Dict.append, List.mem_singleton] at hp
    subst hp
    simp only [List.mem_singleton] at hr
    exact hr ▸ hx
  | cons p d ih =>
    obtain ⟨k', v⟩ := p
    rw [Dict.append]
    split
    · intro q hq r hr
      rcases List.mem_cons.1 hq with rfl | hq
      · rcases List.mem_append.1 hr with hr | hr
        · exact h (k', v) (by simp) r hr
        · simp only [List.mem_singleton] at hr; exact hr ▸ hx
      · exact h q (by simp [hq]) r hr
    · intro q hq r hr
      rcases List.mem_cons.1 hq with rfl | hq
      · exact h (k', v) (by simp) r hr
      · exact ih (fun q hq => h q (by simp [hq])) q hq r hr

theorem addImfs_rev (imfs : List (List K)) : ∀ (d : Dict (List (List K))) (i : Nat),
    addImfs (revDict d) i (imfs.map List.reverse) = revDict (addImfs d i imfs) := by
  induction imfs with
  | nil => intro d i; rfl
  | cons x imfs ih =>
    intro d i
    rw [List.map_cons, addImfs, addImfs, append_rev, ih]

theorem addImfs_len {n : Nat} (imfs : List (List K)) : ∀ (d : Dict (List (List K))) (i : Nat), LenDict n d → (∀ r ∈ imfs, r.length = n) →
    LenDict n (addImfs d i imfs) := by
  induction imfs with
  | nil => intro d i h _; exact h
  | cons x imfs ih =>
    intro d i h hx
    rw [addImfs]
    exact ih _ _ (append_len h _ (hx x (by simp))) (fun r hr => hx r (by simp [hr]))

theorem addTrial_rev (d : Dict (List (List K))) (r : List (List K) × Option (List K)) : addTrial (revDict d) (revOut r) = revDict (addTrial d r) := by
  obtain ⟨imfs, trend⟩ := r
  cases trend with
  | none => exact addImfs_rev imfs d 0
  | some t =>
    show addImfs ((revDict d).append (-1) t.reverse) 0 (imfs.map List.reverse) = _
    rw [append_rev, addImfs_rev]
    rfl

theorem addTrial_len {n : Nat} {d : Dict (List (List K))} (h : LenDict n d) {r : List (List K) × Option (List K)} (hr : LenOut n r) :
    LenDict n (addTrial d r) := by
  obtain ⟨imfs, trend⟩ := r
  cases trend with
  | none => exact addImfs_len imfs d 0 h hr.1
  | some t => exact addImfs_len imfs _ 0 (append_len h (-1) (hr.2 t rfl)) hr.1

theorem runTrials_rev {rng rng' : Rng K ρ} (hr : Backwards rng rng') (hz : Sized rng) {fuel : Nat} {sp : SciPy K} {ecfg : EMD.Cfg K}
    (hE : Sound fuel sp ecfg) (cfg : Cfg K) (job : Job K) : ∀ (n : Nat) (st st' : TrialState K ρ) (d : Dict (List (List K))),
      st'.random = st.random → st.emd.cfg = ecfg → st'.emd.cfg = ecfg → LenDict job.S.length d →
      DrawsAll rng cfg.noiseKind job.scale job.S.length st.random n (Untied sp ecfg job.S job.maxImf) →
      (runTrials rng' fuel sp cfg { job with S := job.S.reverse } n st' (revDict d)).1 = (runTrials rng fuel sp cfg job n st d).1 ∧
      (runTrials rng' fuel sp cfg { job with S := job.S.reverse } n st' (revDict d)).2.1.random = (runTrials rng fuel sp cfg job n st d).2.1.random ∧
      (runTrials rng' fuel sp cfg { job with S := job.S.reverse } n st' (revDict d)).2.2 = revDict (runTrials rng fuel sp cfg job n st d).2.2 ∧
      LenDict job.S.length (runTrials rng fuel sp cfg job n st d).2.2 := by
  intro n
  induction n with
  | zero => intro st st' d h1 h2 h3 hd hu; exact ⟨rfl, h1, rfl, hd⟩
  | succ n ih =>
    intro st st' d h1 h2 h3 hd hu
    have h := trial_rev hr hz hE cfg job st st' h1 h2 h3 n hu
    rw [runTrials, runTrials]
    cases hp : trialUpdate rng fuel sp cfg job st with
    | mk a s =>
      cases hq : trialUpdate rng' fuel sp cfg { job with S := job.S.reverse } st' with
      | mk b s' =>
        rw [hp, hq] at h
        obtain ⟨hrel, g1, g2, g3, g4⟩ := h
        cases a with
        | error e =>
          have hrel : b = .error e := hrel
          subst hrel
          exact ⟨rfl, g1, rfl, hd⟩
        | ok a =>
          have hrel : b = .ok (revOut a) := hrel
          subst hrel
          dsimp only
          rw [addTrial_rev]
          obtain ⟨g5, g6⟩ := g4 a rfl
          exact ih s s' _ g1 g2 g3 (addTrial_len hd g5) g6

theorem runChunk_rev {rng rng' : Rng K ρ} (hr : Backwards rng rng') (hz : Sized rng) {fuel : Nat} {sp : SciPy K} {ecfg : EMD.Cfg K}
    (hE : Sound fuel sp ecfg) (cfg : Cfg K) (job : Job K) : ∀ (n : Nat) (st st' : TrialState K ρ), st'.random = st.random → st.emd.cfg = ecfg →
      st'.emd.cfg = ecfg → DrawsAll rng cfg.noiseKind job.scale job.S.length st.random n (Untied sp ecfg job.S job.maxImf) →
      runChunk rng' fuel sp cfg { job with S := job.S.reverse } n st' = (runChunk rng fuel sp cfg job n st).map (List.map revOut) ∧
      ∀ outs, runChunk rng fuel sp cfg job n st = .ok outs → ∀ out ∈ outs, LenOut job.S.length out := by
  intro n
  induction n with
  | zero =>
    intro st st' h1 h2 h3 hu
    refine ⟨rfl, fun outs h out ho => ?_⟩
    cases h
    cases ho
  | succ n ih =>
    intro st st' h1 h2 h3 hu
    have h := trial_rev hr hz hE cfg job st st' h1 h2 h3 n hu
    rw [runChunk, runChunk]
    cases hp : trialUpdate rng fuel sp cfg job st with
    | mk a s =>
      cases hq : trialUpdate rng' fuel sp cfg { job with S := job.S.reverse } st' with
      | mk b s' =>
        rw [hp, hq] at h
        obtain ⟨hrel, g1, g2, g3, g4⟩ := h
        cases a with
        | error e =>
          have hrel : b = .error e := hrel
          subst hrel
          exact ⟨rfl, fun outs h => by cases h⟩
        | ok a =>
          have hrel : b = .ok (revOut a) := hrel
          subst hrel
          dsimp only
          obtain ⟨g5, g6⟩ := g4 a rfl
          obtain ⟨i1, i2⟩ := ih s s' g1 g2 g3 g6
          rw [i1]
          cases hx : runChunk rng fuel sp cfg job n s with
          | error e => exact ⟨rfl, fun outs h => by cases h⟩
          | ok x =>
            refine ⟨rfl, fun outs h out ho => ?_⟩
            cases h
            rcases List.mem_cons.1 ho with rfl | ho
            · exact g5
            · exact i2 x hx out ho

theorem collect_map {β γ : Type} (f : β → γ) (xs : List (PyM (List β))) : ∀ (order : List Nat) (slots : List (List β)) (e : Option PyErr),
    collect (xs.map (Except.map (List.map f))) (slots.map (List.map f)) e order =
      ((collect xs slots e order).1.map (List.map f), (collect xs slots e order).2) := by
  intro order
  induction order with
  | nil => intro slots e; rfl
  | cons i order ih =>
    intro slots e
    rw [collect, collect, List.getElem?_map]
    cases hx : xs[i]? with
    | none => exact ih slots e
    | some x =>
      cases x with
      | error er => exact ih slots _
      | ok x =>
        dsimp only [Option.map_some, Except.map]
        cases hn : e.isNone with
        | true =>
          have := ih (slots.set i x) e
          rw [List.map_set] at this
          exact this
        | false => exact ih slots e

theorem poolMap_map {β γ : Type} (f : β → γ) (xs : List (PyM (List β))) (order : List Nat) :
    poolMap (xs.map (Except.map (List.map f))) order = (poolMap xs order).map (List.map f) := by
  have := collect_map f xs order (List.replicate xs.length []) none
  rw [List.map_replicate, List.map_nil] at this
  unfold poolMap
  rw [List.length_map, this]
  cases collect xs (List.replicate xs.length []) none order with
  | mk s e =>
    cases e with
    | none => exact congrArg Except.ok List.map_flatten.symm
    | some e => rfl

theorem collect_mem {β : Type} (xs : List (PyM (List β))) (P : β → Prop) (h : ∀ l, .ok l ∈ xs → ∀ x ∈ l, P x) : ∀ (order : List Nat)
    (slots : List (List β)) (e : Option PyErr), (∀ l ∈ slots, ∀ x ∈ l, P x) → ∀ l ∈ (collect xs slots e order).1, ∀ x ∈ l, P x := by
  intro order
  induction order with
  | nil => intro slots e hs; exact hs
  | cons i order ih =>
    intro slots e hs
    rw [collect]
    cases hx : xs[i]? with
    | none => exact ih slots e hs
    | some x =>
      cases x with
      | error er => exact ih slots _ hs
      | ok x =>
        dsimp only
        cases hn : e.isNone with
        | true =>
          refine ih _ e ?_
          intro l hl
          rcases List.mem_or_eq_of_mem_set hl with hl | rfl
          · exact hs l hl
          · exact h l (List.mem_of_getElem? hx)
        | false => exact ih slots e hs

theorem poolMap_mem {β : Type} {xs : List (PyM (List β))} {P : β → Prop} (h : ∀ l, .ok l ∈ xs → ∀ x ∈ l, P x) {order : List Nat} {out : List β}
    (ho : poolMap xs order = .ok out) : ∀ x ∈ out, P x := by
  have := collect_mem xs P h order (List.replicate xs.length []) none (by intro l hl; rw [List.eq_of_mem_replicate hl]; simp)
  unfold poolMap at ho
  cases hc : collect xs (List.replicate xs.length []) none order with
  | mk s e =>
    rw [hc] at ho this
    cases e with
    | some e => cases ho
    | none =>
      cases ho
      intro x hx
      obtain ⟨l, hl, hxl⟩ := List.mem_flatten.1 hx
      exact this l hl x hxl

theorem lookup_revDict (d : Dict (List (List K))) (k : Int) : (revDict d).lookup k = (d.lookup k).map (List.map List.reverse) := by
  induction d with
  | nil => rfl
  | cons p d ih =>
    obtain ⟨k', v⟩ := p
    show List.lookup k ((k', v.map List.reverse) :: revDict d) = _
    rw [List.lookup_cons, List.lookup_cons, ih]
    split <;> rfl

theorem renameTrend_rev (d : Dict (List (List K))) : renameTrend (revDict d) = revDict (renameTrend d) := by
  unfold renameTrend
  rw [lookup_revDict]
  cases d.lookup (-1) with
  | none => rfl
  | some v =>
    have : (revDict d).filter (fun p => p.1 != -1) = revDict (d.filter (fun p => p.1 != -1)) := by
      unfold revDict
      rw [List.filter_map]
      rfl
    simp only [Option.map_some, this]
    simp [revDict]

theorem mem_of_lookup {β : Type} {k : Int} {v : β} : ∀ {d : Dict β}, d.lookup k = some v → (k, v) ∈ d := by
  intro d
  induction d with
  | nil => intro h; cases h
  | cons p d ih =>
    obtain ⟨k', v'⟩ := p
    intro h
    rw [List.lookup_cons] at h
    split at h
    · next hk =>
      cases h
      rw [beq_iff_eq] at hk
      subst hk
      simp
    · simp [ih h]

theorem renameTrend_len {n : Nat} {d : Dict (List (List K))} (h : LenDict n d) : LenDict n (renameTrend d) := by
  unfold renameTrend
  cases hl : d.lookup (-1) with
  | none => exact h
  | some v =>
    intro p hp r hr
    dsimp only at hp
    rcases List.mem_append.1 hp with hp | hp
    · exact h p (List.mem_filter.1 hp).1 r hr
    · simp only [List.mem_singleton] at hp
      subst hp
      exact h _ (mem_of_lookup hl) r hr

theorem meanRows_rev {n : Nat} {rows : List (List K)} (h : ∀ r ∈ rows, r.length = n) : meanRows n (rows.map List.reverse) = (meanRows n rows).reverse := by
  unfold meanRows
  rw [sumRows_reverse h, List.length_map, List.map_reverse]

theorem meanRows_len {n : Nat} {rows : List (List K)} (h : ∀ r ∈ rows, r.length = n) : (meanRows n rows).length = n :=
  (isMean_meanRows n rows h).1

theorem mean_rev {n : Nat} {d : Dict (List (List K))} (h : LenDict n d) : ensembleMean n (revDict d) = (ensembleMean n d).map List.reverse := by
  unfold ensembleMean revDict
  rw [List.map_map, List.map_map]
  apply List.map_congr_left
  intro p hp
  exact meanRows_rev (h p hp)

theorem stdRows_rev {n : Nat} (sqrt : K → K) {rows : List (List K)} (h : ∀ r ∈ rows, r.length = n) :
    stdRows sqrt n (rows.map List.reverse) = (stdRows sqrt n rows).reverse := by
  have hm := meanRows_len h
  unfold stdRows
  dsimp only
  rw [meanRows_rev h, List.map_map]
  have : (rows.map ((fun r => List.zipWith (fun x y => (x - y) * (x - y)) r (meanRows n rows).reverse) ∘ List.reverse)) =
      (rows.map (fun r => List.zipWith (fun x y => (x - y) * (x - y)) r (meanRows n rows))).map List.reverse := by
    rw [List.map_map]
    apply List.map_congr_left
    intro r hr
    simp only [Function.comp]
    rw [List.reverse_zipWith (by rw [h r hr, hm])]
  rw [this, meanRows_rev, List.map_reverse]
  intro r hr
  obtain ⟨x, hx, rfl⟩ := List.mem_map.1 hr
  simp [h x hx, hm]

theorem std_rev {n : Nat} (sqrt : K → K) {d : Dict (List (List K))} (h : LenDict n d) :
    ensembleStd sqrt n (revDict d) = (ensembleStd sqrt n d).map List.reverse := by
  unfold ensembleStd revDict
  rw [List.map_map, List.map_map]
  apply List.map_congr_left
  intro p hp
  exact stdRows_rev sqrt (h p hp)

theorem prepare_rev (cfg : Cfg K) (S : List K) (T : Option (List K)) (m : Int) :
    prepare cfg S.reverse T m = (prepare cfg S T m).map (fun job => { job with S := job.S.reverse }) := by
  by_cases hS : S = []
  · subst hS
    cases T <;> rfl
  · have hS' : S.reverse ≠ [] := by simpa using hS
    have hmax : ∀ l : List K, l ≠ [] → npMaxE l = .ok (npMax l) := by
      intro l hl; cases l with
      | nil => exact absurd rfl hl
      | cons x l => rfl
    have hmin : ∀ l : List K, l ≠ [] → npMinE l = .ok (npMin l) := by
      intro l hl; cases l with
      | nil => exact absurd rfl hl
      | cons x l => rfl
    unfold prepare
    rw [hmax _ hS, hmin _ hS, hmax _ hS', hmin _ hS', npMax_reverse _ hS, npMin_reverse _ hS, List.length_reverse]
    cases T with
    | some t => rfl
    | none =>
      cases h3 : (EMD.timeline S.length : PyM (List K)) with
      | error e => rfl
      | ok t => rfl

theorem finish_rev (S : List K) (o₁ o₂ : Obj K ρ) (d : Dict (List (List K))) (hd : LenDict S.length d) :
    finish S.reverse o₂ (revDict d) = (.ok ((ensembleMean S.length (renameTrend d)).map List.reverse),
      { o₂ with allImfs := revDict (renameTrend d), E_IMF := some ((ensembleMean S.length (renameTrend d)).map List.reverse),
                residue := some (vsub S (sumRows S.length (ensembleMean S.length (renameTrend d)))).reverse }) := by
  have hE : ∀ r ∈ ensembleMean S.length (renameTrend d), r.length = S.length := by
    intro r hr
    obtain ⟨p, hp, rfl⟩ := List.mem_map.1 hr
    exact meanRows_len (renameTrend_len hd p hp)
  unfold finish
  dsimp only
  rw [renameTrend_rev, List.length_reverse, mean_rev (renameTrend_len hd), sumRows_reverse hE, vsub_reverse]
  exact (length_sumRows _ _ hE).symm

/-- **C161** (partial): `EEMD` does not prefer a direction of time.  With the noise run backwards, the signal run backwards gives the rows, the remembered
components of all trials, the residue and the spread run backwards, leaves the generator in the same state, and raises exactly the same exceptions:
sequentially or in parallel, with or without separated trends, for any schedule and number of trials.  The hypothesis that no proto-mode of a trial has
two equal neighbouring samples cannot be dropped (`C161_counterexample`). -/
theorem C161_reversal_partial (rng rng' : Rng K ρ) (hr : Backwards rng rng') (hz : Sized rng) (fuel : Nat) (sp : SciPy K) (hs : ReversibleAll sp)
    (order : List Nat) (o : Obj K ρ) (hd : o.emd.cfg.detection = .simple) (hnb : 1 ≤ o.emd.cfg.nbsym) (S : List K) (T : Option (List K)) (m : Int)
    (hu : ∀ scale noises r', ScaleFor o.cfg.noiseWidth S scale → Stream rng o.cfg.noiseKind scale S.length o.random noises r' →
      noises.length ≤ o.cfg.trials → ∀ x ∈ noises, Untied sp o.emd.cfg S m x) :
    (∃ E o₁ o₂, o.eemd rng fuel sp order S T m = (.ok E, o₁) ∧ o.eemd rng' fuel sp order S.reverse T m = (.ok (E.map List.reverse), o₂) ∧
      o₂.random = o₁.random ∧ o₂.allImfs = o₁.allImfs.map (fun p => (p.1, p.2.map List.reverse)) ∧
      o₂.E_IMF = o₁.E_IMF.map (List.map List.reverse) ∧ o₂.residue = o₁.residue.map List.reverse ∧
      ∀ sqrt, ensembleStd sqrt S.length o₂.allImfs = (ensembleStd sqrt S.length o₁.allImfs).map List.reverse) ∨
    (∃ e o₁ o₂, o.eemd rng fuel sp order S T m = (.error e, o₁) ∧ o.eemd rng' fuel sp order S.reverse T m = (.error e, o₂) ∧
      o₂.random = o₁.random) := by
  have hE : Sound fuel sp o.emd.cfg := ⟨hs, hd, hnb⟩
  have hfin : ∀ (o₁ o₂ : Obj K ρ) (d : Dict (List (List K))), LenDict S.length d → o₂.random = o₁.random →
      ∃ E o₁' o₂', finish S o₁ d = (.ok E, o₁') ∧ finish S.reverse o₂ (revDict d) = (.ok (E.map List.reverse), o₂') ∧
        o₂'.random = o₁'.random ∧ o₂'.allImfs = o₁'.allImfs.map (fun p => (p.1, p.2.map List.reverse)) ∧
        o₂'.E_IMF = o₁'.E_IMF.map (List.map List.reverse) ∧ o₂'.residue = o₁'.residue.map List.reverse ∧
        ∀ sqrt, ensembleStd sqrt S.length o₂'.allImfs = (ensembleStd sqrt S.length o₁'.allImfs).map List.reverse := by
    intro o₁ o₂ d hd hrand
    exact ⟨_, _, _, rfl, finish_rev S o₁ o₂ d hd, hrand, rfl, rfl, rfl, fun sqrt => std_rev sqrt (renameTrend_len hd)⟩
  unfold Obj.eemd
  rw [prepare_rev]
  cases hp : prepare o.cfg S T m with
  | error e => exact .inr ⟨e, o, o, rfl, rfl, rfl⟩
  | ok job =>
    obtain ⟨-, hjob, -, hsc, hmi⟩ := prepare_ok hp
    subst hjob
    subst hmi
    have hu : DrawsAll rng o.cfg.noiseKind job.scale job.S.length o.random o.cfg.trials (Untied sp o.emd.cfg job.S job.maxImf) :=
      fun xs r' h hl => hu job.scale xs r' hsc h hl
    cases hpar : o.cfg.parallel with
    | true =>
      have hle : ∀ n ∈ chunkLengths o.cfg.trials (chunkSize o.cfg.trials o.cfg.processes), n ≤ o.cfg.trials := by
        intro n hn
        unfold chunkLengths at hn
        rcases List.mem_append.1 hn with hn | hn
        · obtain ⟨h0, rfl⟩ := List.mem_replicate.1 hn
          by_contra hlt
          exact h0 (Nat.div_eq_of_lt (by omega))
        · split at hn
          · cases hn
          · simp only [List.mem_singleton] at hn
            exact hn ▸ Nat.mod_le _ _
      have hch : (chunkLengths o.cfg.trials (chunkSize o.cfg.trials o.cfg.processes)).map
            (fun n => runChunk rng' fuel sp o.cfg { job with S := job.S.reverse } n { random := o.random, emd := o.emd }) =
          ((chunkLengths o.cfg.trials (chunkSize o.cfg.trials o.cfg.processes)).map
            (fun n => runChunk rng fuel sp o.cfg job n { random := o.random, emd := o.emd })).map (Except.map (List.map revOut)) := by
        rw [List.map_map]
        apply List.map_congr_left
        intro n hn
        exact (runChunk_rev hr hz hE o.cfg job n ⟨o.random, o.emd⟩ ⟨o.random, o.emd⟩ rfl rfl rfl (hu.mono (hle n hn))).1
      have hmem : ∀ l, .ok l ∈ (chunkLengths o.cfg.trials (chunkSize o.cfg.trials o.cfg.processes)).map
            (fun n => runChunk rng fuel sp o.cfg job n { random := o.random, emd := o.emd }) → ∀ x ∈ l, LenOut job.S.length x := by
        intro l hl
        obtain ⟨n, hn, hl⟩ := List.mem_map.1 hl
        exact (runChunk_rev hr hz hE o.cfg job n ⟨o.random, o.emd⟩ ⟨o.random, o.emd⟩ rfl rfl rfl (hu.mono (hle n hn))).2 l hl
      have hlen := fun out => poolMap_mem hmem (order := order) (out := out)
      simp only [Except.map, if_true]
      rw [hch, poolMap_map]
      generalize poolMap _ order = x at hlen ⊢
      cases x with
      | error e => exact .inr ⟨e, _, _, rfl, rfl, rfl⟩
      | ok x =>
        have key : ∀ (x : List (List (List K) × Option (List K))) (d : Dict (List (List K))), (∀ out ∈ x, LenOut job.S.length out) →
            LenDict job.S.length d →
            (x.map revOut).foldl addTrial (revDict d) = revDict (x.foldl addTrial d) ∧ LenDict job.S.length (x.foldl addTrial d) := by
          intro x
          induction x with
          | nil => intro d _ hd; exact ⟨rfl, hd⟩
          | cons a x ih =>
            intro d hx hd
            rw [List.map_cons, List.foldl_cons, List.foldl_cons, addTrial_rev]
            exact ih _ (fun out ho => hx out (by simp [ho])) (addTrial_len hd (hx a (by simp)))
        obtain ⟨k1, k2⟩ := key x [] (hlen x rfl) (by intro p hp; cases hp)
        rw [show revDict ([] : Dict (List (List K))) = [] from rfl] at k1
        dsimp only [Except.map]
        rw [k1]
        exact .inl (hfin o o _ k2 rfl)
    | false =>
      have hrun := runTrials_rev hr hz hE o.cfg job o.cfg.trials { random := o.random, emd := o.emd } { random := o.random, emd := o.emd } [] rfl rfl rfl
        (by intro p hp; cases hp) hu
      simp only [Except.map, Bool.false_eq_true, if_false]
      rw [show revDict ([] : Dict (List (List K))) = [] from rfl] at hrun
      generalize runTrials rng fuel sp o.cfg job o.cfg.trials { random := o.random, emd := o.emd } [] = x at hrun ⊢
      generalize runTrials rng' fuel sp o.cfg { job with S := job.S.reverse } o.cfg.trials { random := o.random, emd := o.emd } [] = y at hrun ⊢
      obtain ⟨x, st, d⟩ := x
      obtain ⟨y, st', d'⟩ := y
      obtain ⟨g1, g2, g3, g4⟩ := hrun
      dsimp only at g1 g2 g3 g4
      subst g3
      subst g1
      cases y with
      | error e => exact .inr ⟨e, _, _, rfl, rfl, g2⟩
      | ok y => exact .inl (hfin _ _ d g4 g2)

/-- The generator run backwards. -/
def backwards (rng : Rng K ρ) : Rng K ρ where
  normal r s n := ((rng.normal r s n).1.reverse, (rng.normal r s n).2)
  uniform r a b n := ((rng.uniform r a b n).1.reverse, (rng.uniform r a b n).2)
  seed := rng.seed

theorem backwards_backwards (rng : Rng K ρ) : Backwards rng (backwards rng) := ⟨fun _ _ _ => rfl, fun _ _ _ _ => rfl⟩

/-- The first `t` draws. -/
def firstDraws (rng : Rng K ρ) (kind : NoiseKind) (scale : K) (n : Nat) : ρ → Nat → List (List K)
  | _, 0 => []
  | r, t + 1 =>
    match generateNoise rng kind r scale n with
    | (.error _, _) => []
    | (.ok x, r') => x :: firstDraws rng kind scale n r' t

theorem Stream.mem_firstDraws {rng : Rng K ρ} {kind : NoiseKind} {scale : K} {n : Nat} {r r' : ρ} {xs : List (List K)}
    (h : Stream rng kind scale n r xs r') : ∀ t, xs.length ≤ t → ∀ x ∈ xs, x ∈ firstDraws rng kind scale n r t := by
  induction h with
  | nil => intro t _ x hx; cases hx
  | @cons r r' r'' x xs hd _ ih =>
    intro t ht y hy
    cases t with
    | zero => simp at ht
    | succ t =>
      have hg : generateNoise rng kind r scale n = (.ok x, r') := by
        rcases hd with ⟨rfl, h⟩ | ⟨rfl, h⟩ <;> simp only [generateNoise, h]
      rw [firstDraws, hg]
      rcases List.mem_cons.1 hy with rfl | hy
      · simp
      · exact List.mem_cons_of_mem _ (ih t (by simpa using ht) y hy)

/-- Decides the hypothesis of `C161_reversal_partial` for a concrete run. -/
def untiedRun (rng : Rng ℚ ρ) (sp : SciPy ℚ) (o : Obj ℚ ρ) (S : List ℚ) (m : Int) : Bool :=
  (firstDraws rng o.cfg.noiseKind (o.cfg.noiseWidth * pyAbs (npMax S - npMin S)) S.length o.random o.cfg.trials).all
    (fun x => EMD.runFree sp o.emd.cfg ((List.range S.length).map (fun k : Nat => (k : ℚ))) (List.zipWith (fun s x => s + x) S x) m 20 [] (-1))

theorem untiedRun_sound {rng : Rng ℚ ρ} {sp : SciPy ℚ} {o : Obj ℚ ρ} {S : List ℚ} {m : Int} (h : untiedRun rng sp o S m = true) :
    ∀ scale noises r', ScaleFor o.cfg.noiseWidth S scale → Stream rng o.cfg.noiseKind scale S.length o.random noises r' →
      noises.length ≤ o.cfg.trials → ∀ x ∈ noises, Untied sp o.emd.cfg S m x := by
  intro scale noises r' hs hst hl x hx y hy
  unfold ScaleFor at hs
  subst hs
  exact EMD.runFree_sound hy 20 (List.all_eq_true.1 h x (Stream.mem_firstDraws hst _ hl x hx))

/-- Three trials with noise. -/
example := C161_reversal_partial sampleRng (backwards sampleRng) (backwards_backwards _) sampleRng_sized 20 EMD.Spec.strictLinSciPy
  EMD.strictLinSciPy_reversible [] (sampleObj sampleCfg) rfl (by decide) sampleS none (-1) (untiedRun_sound (by decide +kernel))

example : okWith (fun E : List (List ℚ) => E.length == 2)
    ((sampleObj sampleCfg).eemd sampleRng 20 EMD.Spec.strictLinSciPy [] sampleS none (-1)).1 = true := by decide +kernel

/-- In parallel, with separated trends and uniform noise. -/
example := C161_reversal_partial sampleRng (backwards sampleRng) (backwards_backwards _) sampleRng_sized 20 EMD.Spec.strictLinSciPy
  EMD.strictLinSciPy_reversible [1, 0, 2] (sampleObj { sampleCfg with parallel := true, processes := 2, separateTrends := true, noiseKind := .uniform })
  rfl (by decide) sampleS none (-1) (untiedRun_sound (by decide +kernel))

example : okWith (fun E : List (List ℚ) => E.length == 2)
    ((sampleObj { sampleCfg with parallel := true, processes := 2, separateTrends := true, noiseKind := .uniform }).eemd sampleRng 20
      EMD.Spec.strictLinSciPy [1, 0, 2] sampleS none (-1)).1 = true := by decide +kernel

/-- With the same noise, not run backwards, the rows are not the rows run backwards. -/
theorem C161_same_noise : ReversibleAll (EMD.Spec.strictLinSciPy : SciPy ℚ) ∧ untiedRun sampleRng EMD.Spec.strictLinSciPy (sampleObj sampleCfg) sampleS (-1) = true ∧
    ∃ E E', ((sampleObj sampleCfg).eemd sampleRng 20 EMD.Spec.strictLinSciPy [] sampleS none (-1)).1 = .ok E ∧
      ((sampleObj sampleCfg).eemd sampleRng 20 EMD.Spec.strictLinSciPy [] sampleS.reverse none (-1)).1 = .ok E' ∧ E' ≠ E.map List.reverse := by
  have h : okWith (fun E => okWith (fun E' => E' != E.map List.reverse)
      ((sampleObj sampleCfg).eemd sampleRng 20 EMD.Spec.strictLinSciPy [] sampleS.reverse none (-1)).1)
    ((sampleObj sampleCfg).eemd sampleRng 20 EMD.Spec.strictLinSciPy [] sampleS none (-1)).1 = true := by decide +kernel
  obtain ⟨E, hE, h⟩ := okWith_iff.1 h
  obtain ⟨E', hE', h⟩ := okWith_iff.1 h
  exact ⟨EMD.strictLinSciPy_reversible, by decide +kernel, E, E', hE, hE', by simpa using h⟩

/-- C161 is false for noisy signals with plateaus (here the noise has no width). -/
theorem C161_counterexample : ∃ (S : List ℚ) (o : Obj ℚ Nat) (E E' : List (List ℚ)), ReversibleAll (EMD.Spec.strictLinSciPy : SciPy ℚ) ∧
    Backwards sampleRng (backwards sampleRng) ∧ Sized sampleRng ∧ o.emd.cfg.detection = .simple ∧ 1 ≤ o.emd.cfg.nbsym ∧
    (o.eemd sampleRng 20 EMD.Spec.strictLinSciPy [] S none 1).1 = .ok E ∧
    (o.eemd (backwards sampleRng) 20 EMD.Spec.strictLinSciPy [] S.reverse none 1).1 = .ok E' ∧ E' ≠ E.map List.reverse := by
  have h : okWith (fun E => okWith (fun E' => E' != E.map List.reverse)
      ((sampleObj { sampleCfg with noiseWidth := 0 }).eemd (backwards sampleRng) 20 EMD.Spec.strictLinSciPy [] [1, 5, -2, 2, 2, -1, 3, 0] none 1).1)
    ((sampleObj { sampleCfg with noiseWidth := 0 }).eemd sampleRng 20 EMD.Spec.strictLinSciPy [] [0, 3, -1, 2, 2, -2, 5, 1] none 1).1 = true := by
    decide +kernel
  obtain ⟨E, hE, h⟩ := okWith_iff.1 h
  obtain ⟨E', hE', h⟩ := okWith_iff.1 h
  exact ⟨_, _, E, E', EMD.strictLinSciPy_reversible, backwards_backwards _, sampleRng_sized, rfl, by decide, hE, hE', by simpa using h⟩

end EEMD
end PyEMD
