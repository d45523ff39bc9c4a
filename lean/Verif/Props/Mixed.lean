import Verif.Model.Mixed
import Verif.Props.Ieee
import Verif.Props.Float
import Verif.Lemmas.IeeePoints
import Verif.Lemmas.IeeeMono
import Verif.Lemmas.IeeeSymmetric
import Verif.Spec.Samples
import Verif.Spec.Interp

/-!
# C160: signals in single and half precision
-/

set_option linter.unusedSectionVars false

namespace PyEMD
namespace Mixed
open EMD (Cfg Sift SiftEnd SiftStep Round Result SplineKind)
open EMD.Spec (IsResidue Vanishes)

section
variable {α β : Type} [Add α] [Sub α] [Mul α] [Div α] [Neg α] [LT α] [LE α] [BEq α] [DecidableLT α] [DecidableLE α] [NpScalar α]
variable [Add β] [Sub β] [Mul β] [Div β] [Neg β] [LT β] [LE β] [BEq β] [DecidableLT β] [DecidableLE β] [NpScalar β]

/-! ### Double precision -/

/-- The envelopes of `EMD.spline_points` when both types are the same. -/
def envOf (sp : SciPy α) (kind : SplineKind) (T : List α) (knots : List (α × α)) : PyM (List α) := (EMD.splinePoints sp kind T knots).map (·.2)

/-- No conversion. -/
def same : Formats α α := ⟨id, id⟩

theorem siftOnce_same (sp : SciPy α) (cfg : Cfg α) (T imf : List α) :
    siftOnce same (envOf sp cfg.splineKind) cfg T imf = EMD.siftOnce sp cfg T imf := by
  unfold siftOnce EMD.siftOnce EMD.extractMaxMinSpline envOf
  cases EMD.findExtrema cfg.detection T imf with
  | error e => rfl
  | ok x =>
    dsimp only [bind, Except.bind]
    split
    · rfl
    · cases EMD.preparePoints cfg.detection cfg.nbsym T imf x with
      | error e => rfl
      | ok p =>
        obtain ⟨eMax, eMin⟩ := p
        dsimp only
        cases EMD.splinePoints sp cfg.splineKind T eMax with
        | error e => rfl
        | ok a =>
          cases EMD.splinePoints sp cfg.splineKind T eMin with
          | error e => rfl
          | ok b => rfl

theorem siftBody_same (sp : SciPy α) (cfg : Cfg α) (T : List α) (s : Sift α) : siftBody (EMD.siftOnce sp cfg T) cfg T s = EMD.siftBody sp cfg T s := rfl

theorem siftLoop_same (sp : SciPy α) (cfg : Cfg α) (T : List α) : ∀ (fuel : Nat) (s : Sift α),
    siftLoop (EMD.siftOnce sp cfg T) cfg T fuel s = EMD.siftLoop sp cfg T fuel s := by
  intro fuel
  induction fuel with
  | zero => intro s; rfl
  | succ fuel ih =>
    intro s
    rw [siftLoop, EMD.siftLoop, siftBody_same]
    cases EMD.siftBody sp cfg T s with
    | error e => rfl
    | ok r =>
      cases r with
      | brk s' why => rfl
      | cont s' => exact ih s'

theorem container_same (rounds : List (Round α)) : container same rounds = rounds.map (·.imf) := by
  unfold container same
  simp

theorem emdLoop_same (sp : SciPy α) (cfg : Cfg α) (T S : List α) (m : Int) : ∀ (fuel : Nat) (rounds : List (Round α)) (extNo : Int),
    emdLoop same (envOf sp cfg.splineKind) cfg T S m fuel rounds extNo = EMD.emdLoop sp cfg T S m fuel rounds extNo := by
  intro fuel
  induction fuel with
  | zero => intro rounds extNo; rfl
  | succ fuel ih =>
    intro rounds extNo
    have hc : narrowCfg same cfg = cfg := rfl
    have ho : siftOnce same (envOf sp cfg.splineKind) cfg T = EMD.siftOnce sp cfg T := funext (siftOnce_same sp cfg T)
    rw [emdLoop, EMD.emdLoop, EMD.emdRound, hc, ho]
    simp only [container_same, siftLoop_same, ih]
    have hS : S.map (same : Formats α α).up = S := List.map_id S
    have hd : ∀ l : List α, l.map (same : Formats α α).down = l := List.map_id
    rw [hS, hd]

/-- **C160, double precision.**  For signals in double precision, when nothing is converted, this is the model of all other theorems. -/
theorem C160_double (fuel : Nat) (sp : SciPy α) (cfg : Cfg α) (S : List α) (T : Option (List α)) (m : Int) :
    emd same fuel (envOf sp cfg.splineKind) cfg S T m = EMD.emdPure fuel sp cfg S T m := by
  unfold emd EMD.emdPure EMD.emdRounds
  have hc : narrowCfg same cfg = cfg := rfl
  have hS : S.map (same : Formats α α).up = S := List.map_id S
  rw [hc, hS]
  cases EMD.prepareTime cfg S T with
  | error e => rfl
  | ok T' =>
    simp only [emdLoop_same, container_same]
    show (EMD.emdLoop sp cfg T' S m fuel [] (-1) >>= _) = ((EMD.emdLoop sp cfg T' S m fuel [] (-1)) >>= _)
    rfl

/-! ### Shape -/

theorem siftOnce_length {P : Formats α β} {env : List α → List (α × α) → PyM (List β)} {cfg : Cfg α} {T x y : List α} {k k' : List (α × α)}
    (h : siftOnce P env cfg T x = .ok (y, k, k')) : y.length = x.length := by
  unfold siftOnce at h
  cases h1 : EMD.findExtrema cfg.detection T x with
  | error e => rw [h1] at h; cases h
  | ok ex =>
    rw [h1] at h
    dsimp only [bind, Except.bind] at h
    split at h
    · cases h
    · cases h2 : EMD.preparePoints cfg.detection cfg.nbsym T x ex with
      | error e => rw [h2] at h; cases h
      | ok p =>
        rw [h2] at h
        dsimp only at h
        cases h3 : env T p.1 with
        | error e => rw [h3] at h; cases h
        | ok a =>
          cases h4 : env T p.2 with
          | error e => rw [h3, h4] at h; cases h
          | ok b =>
            rw [h3, h4] at h
            dsimp only at h
            cases h5 : bcast (fun a b => a + b) a b with
            | error e => rw [h5] at h; cases h
            | ok s =>
              rw [h5] at h
              dsimp only at h
              cases h6 : assignAll x.length (s.map (fun x => P.down (lit (1 / 2) * x))) with
              | error e => rw [h6] at h; cases h
              | ok mean =>
                rw [h6] at h
                have := EMD.assignAll_length h6
                cases h
                simp [vsub, this]

/-- Every way through the body keeps the proto-IMF or subtracts a mean once. -/
theorem siftBody_imf {once : List α → PyM (List α × List (α × α) × List (α × α))} {cfg : Cfg α} {T : List α} {s : Sift α} {r : SiftStep α}
    (h : siftBody once cfg T s = .ok r) :
    ∃ s', ((∃ why, r = .brk s' why) ∨ r = .cont s') ∧ (s'.imf = s.imf ∨ ∃ k k', once s.imf = .ok (s'.imf, k, k')) := by
  unfold siftBody at h
  dsimp only [bind, Except.bind, pure, Except.pure] at h
  split at h
  · cases h; exact ⟨_, .inl ⟨_, rfl⟩, .inl rfl⟩
  · cases h1 : EMD.countExt cfg T s.imf with
    | error e => rw [h1] at h; cases h
    | ok c =>
      rw [h1] at h
      dsimp only at h
      split at h
      · cases h2 : once s.imf with
        | error e => rw [h2] at h; cases h
        | ok o =>
          obtain ⟨y, k, k'⟩ := o
          rw [h2] at h
          dsimp only at h
          split at h
          · split at h <;> cases h
            · exact ⟨_, .inl ⟨_, rfl⟩, .inr ⟨k, k', rfl⟩⟩
            · exact ⟨_, .inr rfl, .inr ⟨k, k', rfl⟩⟩
          · split at h
            · cases h3 : EMD.countExt cfg T y with
              | error e => rw [h3] at h; cases h
              | ok c' =>
                rw [h3] at h
                dsimp only at h
                generalize (if |c'.1 - c'.2| < 2 then s.nh + 1 else 0) = nh at h
                split at h
                · cases h; exact ⟨_, .inr rfl, .inr ⟨k, k', rfl⟩⟩
                · split at h <;> cases h
                  · exact ⟨_, .inl ⟨_, rfl⟩, .inr ⟨k, k', rfl⟩⟩
                  · exact ⟨_, .inr rfl, .inr ⟨k, k', rfl⟩⟩
            · cases h3 : EMD.countExt cfg T y with
              | error e => rw [h3] at h; cases h
              | ok c' =>
                rw [h3] at h
                dsimp only at h
                cases h4 : EMD.checkImf cfg y s.imf k k' with
                | error e => rw [h4] at h; cases h
                | ok f1 =>
                  rw [h4] at h
                  dsimp only at h
                  split at h <;> cases h
                  · exact ⟨_, .inl ⟨_, rfl⟩, .inr ⟨k, k', rfl⟩⟩
                  · exact ⟨_, .inr rfl, .inr ⟨k, k', rfl⟩⟩
      · cases h; exact ⟨_, .inl ⟨_, rfl⟩, .inl rfl⟩

/-- Zero or more subtractions of the mean. -/
inductive Sifted (once : List α → PyM (List α × List (α × α) × List (α × α))) : List α → List α → Prop
  | refl (x) : Sifted once x x
  | step {x y z k k'} : once x = .ok (y, k, k') → Sifted once y z → Sifted once x z

theorem siftLoop_sifted {once : List α → PyM (List α × List (α × α) × List (α × α))} {cfg : Cfg α} {T : List α} : ∀ (fuel : Nat) {s s' : Sift α}
    {why : SiftEnd}, siftLoop once cfg T fuel s = .ok (s', why) → Sifted once s.imf s'.imf := by
  intro fuel
  induction fuel with
  | zero => intro s s' why h; cases h
  | succ fuel ih =>
    intro s s' why h
    rw [siftLoop] at h
    cases h1 : siftBody once cfg T s with
    | error e => rw [h1] at h; cases h
    | ok r =>
      rw [h1] at h
      obtain ⟨t, h2, h3⟩ := siftBody_imf h1
      have key : Sifted once t.imf s'.imf := by
        rcases h2 with ⟨why', rfl⟩ | rfl
        · cases h; exact .refl _
        · exact ih h
      rcases h3 with h3 | ⟨k, k', h3⟩
      · rw [← h3]; exact key
      · exact .step h3 key

theorem Sifted.length {P : Formats α β} {env : List α → List (α × α) → PyM (List β)} {cfg : Cfg α} {T x y : List α}
    (h : Sifted (siftOnce P env cfg T) x y) : y.length = x.length := by
  induction h with
  | refl x => rfl
  | step h1 _ ih => rw [ih, siftOnce_length h1]

/-- The components sifted one after the other: the next one starts at the narrow rest, the signal less the components so far, which is computed wide. -/
inductive Chain (P : Formats α β) (env : List α → List (α × α) → PyM (List β)) (cfg : Cfg β) (T S : List α) : List (List α) → Prop
  | nil : Chain P env cfg T S []
  | snoc {imfs : List (List α)} {rest : List β} {x : List α} : Chain P env cfg T S imfs → IsResidue (S.map P.up) (imfs.map (List.map P.up)) rest →
      Sifted (siftOnce P env (narrowCfg P cfg) T) (rest.map P.down) x → Chain P env cfg T S (imfs ++ [x])

theorem Chain.length {P : Formats α β} {env : List α → List (α × α) → PyM (List β)} {cfg : Cfg β} {T S : List α} {imfs : List (List α)}
    (h : Chain P env cfg T S imfs) : ∀ x ∈ imfs, x.length = S.length := by
  induction h with
  | nil => simp
  | snoc h1 h2 h3 ih =>
    intro y hy
    rcases List.mem_append.1 hy with hy | hy
    · exact ih y hy
    · rw [List.mem_singleton.1 hy, h3.length, List.length_map, h2.1, List.length_map]

theorem emdLoop_chain {P : Formats α β} {env : List α → List (α × α) → PyM (List β)} {cfg : Cfg β} {T S : List α} {m : Int} : ∀ (fuel : Nat)
    {rounds out : List (Round α)} {e e' : Int}, emdLoop P env cfg T S m fuel rounds e = .ok (out, e') → Chain P env cfg T S (rounds.map (·.imf)) →
      (1 ≤ m → (rounds.length : Int) < m) → Chain P env cfg T S (out.map (·.imf)) ∧ out ≠ [] ∧ (1 ≤ m → (out.length : Int) ≤ m) := by
  intro fuel
  induction fuel with
  | zero => intro rounds out e e' h; cases h
  | succ fuel ih =>
    intro rounds out e e' h hc hm
    rw [emdLoop] at h
    dsimp only [bind, Except.bind, pure, Except.pure] at h
    split at h
    · cases h
    · next p h1 =>
      have h2 := siftLoop_sifted _ h1
      dsimp only at h2
      split at h
      · cases h
      · next fin _ =>
        have hlen : ∀ r ∈ container P rounds, r.length = (S.map P.up).length := by
          intro r hr
          obtain ⟨q, hq, rfl⟩ := List.mem_map.1 hr
          rw [List.length_map, List.length_map]
          exact hc.length _ (List.mem_map.2 ⟨q, hq, rfl⟩)
        have hres := EMD.isResidue_vsub (S.map P.up) (container P rounds) hlen
        rw [List.length_map] at hres
        have hcc : container P rounds = (rounds.map (·.imf)).map (List.map P.up) := by rw [container, List.map_map]; rfl
        have hc' : Chain P env cfg T S ((rounds ++ [({ imf := p.1.imf, why := p.2, subs := p.1.subs, nh := p.1.nh } : Round α)]).map (·.imf)) := by
          rw [List.map_append]
          exact .snoc hc (hcc ▸ hres) h2
        split at h
        · cases h
          refine ⟨hc', by simp, fun h1 => ?_⟩
          have := hm h1
          simp only [List.length_append, List.length_singleton, Nat.cast_add, Nat.cast_one]
          omega
        · next hfin =>
          refine ih h hc' fun h1 => ?_
          have := hm h1
          simp only [Bool.or_eq_true, decide_eq_true_eq, not_or] at hfin
          have := hfin.1.2
          simp only [List.length_append, List.length_singleton, Nat.cast_add, Nat.cast_one] at this ⊢
          omega

/-- **C160, components.**  What is stored and returned for a narrow signal: the components are numbers of the narrow format, converted (`Chain`: each is sifted from what
the ones before it leave of the signal); the residue is computed in the wide format from them; the rows are the components and, unless it vanishes, the
residue; with `max_imf ≥ 1` there are at most that many components. -/
theorem C160_components {P : Formats α β} {env : List α → List (α × α) → PyM (List β)} {cfg : Cfg β} {fuel : Nat} {S : List α} {T : Option (List α)} {m : Int}
    {R : Result β} (h : emd P fuel env cfg S T m = .ok R) :
    ∃ T' imfs, EMD.prepareTime (narrowCfg P cfg) S T = .ok T' ∧ Chain P env cfg T' S imfs ∧ (∀ x ∈ imfs, x.length = S.length) ∧ (1 ≤ m → (imfs.length : Int) ≤ m) ∧
      (R.imfs = imfs.map (List.map P.up) ∨ R.imfs = imfs.dropLast.map (List.map P.up)) ∧ IsResidue (S.map P.up) R.imfs R.residue ∧
      ((Vanishes R.residue ∧ R.rows = R.imfs) ∨ (¬ Vanishes R.residue ∧ R.rows = R.imfs ++ [R.residue])) := by
  unfold emd at h
  cases h1 : EMD.prepareTime (narrowCfg P cfg) S T with
  | error e => rw [h1] at h; cases h
  | ok T' =>
    rw [h1] at h
    dsimp only [bind, Except.bind] at h
    cases h2 : emdLoop P env cfg T' S m fuel [] (-1) with
    | error e => rw [h2] at h; cases h
    | ok p =>
      rw [h2] at h
      obtain ⟨out, e⟩ := p
      obtain ⟨hc, -, hm⟩ := emdLoop_chain fuel h2 .nil (fun h => by simp only [List.length_nil, Nat.cast_zero]; omega)
      have hR : R = EMD.finish (S.map P.up) (container P out) e := by cases h; rfl
      have hcc : container P out = (out.map (·.imf)).map (List.map P.up) := by rw [container, List.map_map]; rfl
      have himf : R.imfs = container P out ∨ R.imfs = (container P out).dropLast := by
        rw [hR]
        unfold EMD.finish
        dsimp only
        split
        · exact .inr rfl
        · exact .inl rfl
      have hlen : ∀ r ∈ R.imfs, r.length = (S.map P.up).length := by
        intro r hr
        have hr : r ∈ container P out := by
          rcases himf with h | h <;> rw [h] at hr
          · exact hr
          · exact List.dropLast_subset _ hr
        rw [hcc] at hr
        obtain ⟨x, hx, rfl⟩ := List.mem_map.1 hr
        rw [List.length_map, List.length_map]
        exact hc.length x hx
      refine ⟨T', out.map (·.imf), rfl, hc, hc.length, by rw [List.length_map]; exact hm, ?_, ?_, ?_⟩
      · rcases himf with h | h
        · exact .inl (h.trans hcc)
        · exact .inr (by rw [h, hcc, List.map_dropLast])
      · have hres := EMD.finish_residue (S.map P.up) (container P out) e
        rw [← hR] at hres
        rw [hres]
        exact EMD.isResidue_vsub _ _ hlen
      · have hrows := EMD.finish_rows (S.map P.up) (container P out) e
        rw [← hR] at hrows
        rw [hrows]
        by_cases hv : Vanishes R.residue
        · exact .inl ⟨hv, if_pos ((EMD.allclose0_iff _).2 hv)⟩
        · exact .inr ⟨hv, if_neg (fun hc => hv ((EMD.allclose0_iff _).1 hc))⟩

/-- The rest is large in the wide format: its range reaches `range_thr` and its absolute values add up to `total_power_thr` (`end_condition` does not apply). -/
def Large (cfg : Cfg β) (rest : List β) : Prop :=
  ∃ mx mn, npMaxE rest = .ok mx ∧ npMinE rest = .ok mn ∧ ¬ mx - mn < cfg.rangeThr ∧ ¬ npSum (rest.map pyAbs) < cfg.totalPowerThr

theorem large_of_endCondition {cfg : Cfg β} {S : List β} {rows : List (List β)} (h : EMD.endCondition cfg S rows = .ok false) :
    Large cfg (vsub S (sumRows S.length rows)) := by
  unfold EMD.endCondition at h
  dsimp only at h
  cases h1 : npMaxE (vsub S (sumRows S.length rows)) with
  | error e => rw [h1] at h; cases h
  | ok mx =>
    cases h2 : npMinE (vsub S (sumRows S.length rows)) with
    | error e => rw [h1, h2] at h; cases h
    | ok mn =>
      rw [h1, h2] at h
      dsimp only [bind, Except.bind, pure, Except.pure] at h
      split at h
      · cases h
      · next h3 =>
        split at h
        · cases h
        · next h4 => exact ⟨mx, mn, h1, h2, h3, h4⟩

theorem emdLoop_large {P : Formats α β} {env : List α → List (α × α) → PyM (List β)} {cfg : Cfg β} {T S : List α} {m : Int} : ∀ (fuel : Nat)
    {rounds out : List (Round α)} {e e' : Int}, emdLoop P env cfg T S m fuel rounds e = .ok (out, e') →
      rounds <+: out ∧ ∀ k, rounds.length < k → k < out.length → EMD.endCondition cfg (S.map P.up) (container P (out.take k)) = .ok false := by
  intro fuel
  induction fuel with
  | zero => intro rounds out e e' h; cases h
  | succ fuel ih =>
    intro rounds out e e' h
    rw [emdLoop] at h
    dsimp only [bind, Except.bind, pure, Except.pure] at h
    split at h
    · cases h
    · next p h1 =>
      split at h
      · cases h
      · next fin hend =>
        split at h
        · cases h
          refine ⟨List.prefix_append _ _, fun k h1 h2 => ?_⟩
          simp only [List.length_append, List.length_singleton] at h2
          omega
        · next hfin =>
          obtain ⟨h3, h4⟩ := ih h
          refine ⟨(List.prefix_append _ _).trans h3, fun k hk1 hk2 => ?_⟩
          rcases Nat.lt_or_ge (rounds.length + 1) k with hk | hk
          · exact h4 k (by simpa using hk) hk2
          · have hk' : k = rounds.length + 1 := by omega
            have htake : out.take k = rounds ++ [({ imf := p.1.imf, why := p.2, subs := p.1.subs, nh := p.1.nh } : Round α)] := by
              obtain ⟨t, rfl⟩ := h3
              rw [hk', List.take_append_of_le_length (by simp), List.take_of_length_le (by simp)]
            rw [htake, hend]
            cases fin with
            | false => rfl
            | true => simp at hfin

/-- **C160, the end.**  The test whether to look for another component is made in the wide format: with `n` components returned, the rest after the first `k < n` of them, computed wide, is large. -/
theorem C160_end {P : Formats α β} {env : List α → List (α × α) → PyM (List β)} {cfg : Cfg β} {fuel : Nat} {S : List α} {T : Option (List α)} {m : Int}
    {R : Result β} (h : emd P fuel env cfg S T m = .ok R) (k : Nat) (hk : 1 ≤ k) (hk' : k < R.imfs.length) :
    ∃ rest, IsResidue (S.map P.up) (R.imfs.take k) rest ∧ Large cfg rest := by
  have h0 := h
  unfold emd at h
  cases h1 : EMD.prepareTime (narrowCfg P cfg) S T with
  | error e => rw [h1] at h; cases h
  | ok T' =>
    rw [h1] at h
    dsimp only [bind, Except.bind] at h
    cases h2 : emdLoop P env cfg T' S m fuel [] (-1) with
    | error e => rw [h2] at h; cases h
    | ok p =>
      rw [h2] at h
      obtain ⟨out, e⟩ := p
      have hR : R = EMD.finish (S.map P.up) (container P out) e := by cases h; rfl
      have himf : R.imfs = if e ≤ 2 then (container P out).dropLast else container P out := by rw [hR]; rfl
      have hlen : R.imfs.length ≤ out.length := by
        rw [himf]; split
        · rw [List.length_dropLast, container, List.length_map]; omega
        · rw [container, List.length_map]
      have htake : R.imfs.take k = container P (out.take k) := by
        have : container P (out.take k) = (container P out).take k := by rw [container, container, List.map_take]
        rw [this]
        rw [himf] at hk' ⊢
        split at hk' <;> rename_i hif
        · rw [if_pos hif, List.dropLast_eq_take, List.take_take, Nat.min_eq_left]
          rw [List.length_dropLast] at hk'
          omega
        · rw [if_neg hif]
      have hl := large_of_endCondition ((emdLoop_large fuel h2).2 k (by rw [List.length_nil]; omega) (by omega))
      rw [htake]
      refine ⟨_, EMD.isResidue_vsub _ _ ?_, hl⟩
      obtain ⟨hc, -, -⟩ := emdLoop_chain fuel h2 .nil (fun h => by simp only [List.length_nil, Nat.cast_zero]; omega)
      intro r hr
      obtain ⟨q, hq, rfl⟩ := List.mem_map.1 hr
      rw [List.length_map, List.length_map]
      exact hc.length _ (List.mem_map.2 ⟨q, List.mem_of_mem_take hq, rfl⟩)

/-- **C160, rounding.**  Whatever the format of the signal, components and residue add up to it up to the rounding errors of the *wide* format. -/
theorem C160_adds_up (F : FloatArith β) {P : Formats α β} {env : List α → List (α × α) → PyM (List β)} {cfg : Cfg β} {fuel : Nat} {S : List α}
    {T : Option (List α)} {m : Int} {R : Result β} (h : emd P fuel env cfg S T m = .ok R) (hf : ∀ x ∈ R.residue, F.finite x) (i : Nat) (hi : i < S.length) :
    |F.val (P.up S[i]) - ((F.column R.imfs i).sum + F.val (R.residue.getD i (lit 0)))| ≤ F.slack (F.val (P.up S[i])) (F.column R.imfs i) := by
  obtain ⟨-, -, -, -, -, -, -, hr, -⟩ := C160_components h
  have := F.residue_err hr hf i (by simpa using hi)
  simpa using this

end
end Mixed

/-! ### Conversions -/

namespace Ieee
variable {f e E f' e' E' : ℕ}

/-- The significand of a number of the format has at most `f + 1` bits. -/
theorem rep_form {m : ℤ} (h : rndInt f m 1 = m) : ∃ k : ℤ, m = k * 2 ^ excess f m.natAbs ∧ k.natAbs ≤ 2 ^ (f + 1) := by
  have hn : rndNat f m.natAbs 1 = m.natAbs := by
    unfold rndInt at h
    split at h <;> omega
  have hq := roundDiv_excess f m.natAbs 1 Nat.one_pos
  rw [Nat.div_one, one_mul] at hq
  rw [rndNat_one] at hn
  generalize roundDiv m.natAbs (2 ^ excess f m.natAbs) = q at *
  rcases le_or_gt 0 m with h0 | h0
  · refine ⟨q, ?_, by simpa using hq⟩
    have : (m.natAbs : ℤ) = m := Int.natAbs_of_nonneg h0
    have h2 : ((q * 2 ^ excess f m.natAbs : ℕ) : ℤ) = m := by rw [hn, this]
    push_cast at h2
    linarith
  · refine ⟨-q, ?_, by simpa using hq⟩
    have : (m.natAbs : ℤ) = -m := Int.ofNat_natAbs_of_nonpos h0.le
    have h2 : ((q * 2 ^ excess f m.natAbs : ℕ) : ℤ) = -m := by rw [hn, this]
    push_cast at h2
    linarith

/-- A format with more bits on every side. -/
def Wider (f e E f' e' E' : ℕ) : Prop := f ≤ f' ∧ e ≤ e' ∧ E ≤ E'

theorem cast_num (hw : Wider f e E f' e' E') (m : ℤ) (h : Rep f e E m) :
    ∃ h', (cast (num m h : Ieee f e E) : Ieee f' e' E') = num (m * 2 ^ (e' - e)) h' := by
  obtain ⟨hf, he, hE⟩ := hw
  obtain ⟨k, hk, hb⟩ := rep_form h.1
  have hpow : (2 : ℤ) ^ e' = 2 ^ (e' - e) * 2 ^ e := by rw [← pow_add]; congr 1; omega
  have h1 : rndInt f' (m * 2 ^ e') (2 ^ e) = m * 2 ^ (e' - e) := by
    have : m * 2 ^ e' = (m * 2 ^ (e' - e)) * ((2 ^ e : ℕ) : ℤ) := by rw [hpow]; push_cast; ring
    rw [this, rndInt_mul _ _ _ (by positivity)]
    conv_lhs => rw [hk]
    conv_rhs => rw [hk]
    rw [mul_assoc, ← pow_add]
    exact rndInt_exact f' k _ (hb.trans (Nat.pow_le_pow_right (by norm_num) (by omega)))
  have h2 : (m * 2 ^ (e' - e)).natAbs < 2 ^ (E' + e') := by
    rw [Int.natAbs_mul, Int.natAbs_pow]
    have h3 : m.natAbs * 2 ^ (e' - e) < 2 ^ (E + e) * 2 ^ (e' - e) := Nat.mul_lt_mul_of_pos_right h.2 (by positivity)
    refine lt_of_lt_of_le h3 ?_
    rw [← pow_add]
    exact Nat.pow_le_pow_right (by norm_num) (by omega)
  refine ⟨⟨?_, h2⟩, ?_⟩
  · have := rndInt_idem f' (m * 2 ^ e') (2 ^ e) (by positivity)
    rwa [h1] at this
  · show round (m * 2 ^ e') (2 ^ e) (Nat.two_pow_pos e) = _
    unfold round
    rw [dif_pos (by rw [h1]; exact h2)]
    exact num_congr h1

/-- **C160, conversions.**  A wider format holds every number of a narrower one, and converting there and back changes nothing. -/
theorem C160_conversion (hw : Wider f e E f' e' E') (x : Ieee f e E) :
    (cast x : Ieee f' e' E').isFinite = x.isFinite ∧ (cast x : Ieee f' e' E').val = x.val ∧ (cast (cast x : Ieee f' e' E') : Ieee f e E) = x := by
  cases x with
  | nan => exact ⟨rfl, rfl, rfl⟩
  | inf s => exact ⟨rfl, rfl, rfl⟩
  | num m h =>
    obtain ⟨h', hc⟩ := cast_num hw m h
    have hpow : (2 : ℝ) ^ e' = 2 ^ (e' - e) * 2 ^ e := by rw [← pow_add]; congr 1; have := hw.2.1; omega
    have hpow' : (2 : ℤ) ^ e' = 2 ^ (e' - e) * 2 ^ e := by rw [← pow_add]; congr 1; have := hw.2.1; omega
    rw [hc]
    refine ⟨rfl, ?_, ?_⟩
    · show ((m * 2 ^ (e' - e) : ℤ) : ℝ) / 2 ^ e' = (m : ℝ) / 2 ^ e
      rw [hpow]
      push_cast
      field_simp
    · show round (m * 2 ^ (e' - e) * 2 ^ e) (2 ^ e') (Nat.two_pow_pos e') = _
      have h1 : rndInt f (m * 2 ^ (e' - e) * 2 ^ e) (2 ^ e') = m := by
        have : m * 2 ^ (e' - e) * 2 ^ e = m * ((2 ^ e' : ℕ) : ℤ) := by push_cast; rw [hpow']; ring
        rw [this, rndInt_mul _ _ _ (by positivity), h.1]
      unfold round
      rw [dif_pos (by rw [h1]; exact h.2)]
      exact num_congr h1

/-- Single precision and half precision in double precision. -/
example : Wider 23 149 128 52 1074 1024 ∧ Wider 10 24 16 52 1074 1024 := by unfold Wider; decide

/-! ### Exact sums -/

/-- Number of units `2⁻ᵉ`. -/
def units : Ieee f e E → ℤ
  | num m _ => m
  | _ => 0

theorem val_units (x : Ieee f e E) : x.val = (x.units : ℝ) / 2 ^ e := by
  cases x <;> simp [val, units]

theorem units_neg (x : Ieee f e E) : (-x).units = -x.units := by
  cases x <;> simp [units] <;> rfl

theorem add_exact {x y : Ieee f e E} {k : ℕ} (hx : (2 : ℤ) ^ k ∣ x.units) (hy : (2 : ℤ) ^ k ∣ y.units) (hb : |x.units + y.units| ≤ 2 ^ (f + 1 + k))
    (hfin : (x + y).isFinite = true) : (x + y).units = x.units + y.units := by
  obtain ⟨h1, h2⟩ := add_finite hfin
  obtain ⟨a, ha, rfl⟩ := eq_num h1
  obtain ⟨b, hb', rfl⟩ := eq_num h2
  rw [add_num] at hfin ⊢
  obtain ⟨h', h3⟩ := round_ok hfin
  rw [h3]
  show rndInt f (a + b) 1 = a + b
  obtain ⟨c, hc⟩ := dvd_add hx hy
  have hc : a + b = 2 ^ k * c := hc
  have hb : |a + b| ≤ 2 ^ (f + 1 + k) := hb
  rw [hc, mul_comm]
  refine rndInt_exact f c k ?_
  rw [hc, abs_mul, abs_of_pos (by positivity), pow_add, mul_comm] at hb
  have := le_of_mul_le_mul_right hb (by positivity : (0 : ℤ) < 2 ^ k)
  have h4 : ((c.natAbs : ℕ) : ℤ) ≤ ((2 ^ (f + 1) : ℕ) : ℤ) := by rw [Int.natCast_natAbs]; exact_mod_cast this
  exact_mod_cast h4

theorem foldl_exact {k : ℕ} : ∀ (xs : List (Ieee f e E)) (s : Ieee f e E), (xs.foldl (· + ·) s).isFinite = true → (2 : ℤ) ^ k ∣ s.units →
    (∀ x ∈ xs, (2 : ℤ) ^ k ∣ x.units) → |s.units| + (xs.map (fun x => |x.units|)).sum ≤ 2 ^ (f + 1 + k) →
    (xs.foldl (· + ·) s).units = s.units + (xs.map units).sum := by
  intro xs
  induction xs with
  | nil => intro s _ _ _ _; simp
  | cons x xs ih =>
    intro s hfin hs hx hb
    rw [List.foldl_cons] at hfin ⊢
    simp only [List.map_cons, List.sum_cons] at hb ⊢
    have hpos : 0 ≤ (xs.map (fun x => |x.units|)).sum := List.sum_nonneg (by simp)
    have hF : (s + x).isFinite = true := by
      have : ∀ (l : List (Ieee f e E)) (a : Ieee f e E), (l.foldl (· + ·) a).isFinite = true → a.isFinite = true := by
        intro l
        induction l with
        | nil => intro a h; exact h
        | cons y l ih => intro a h; exact (add_finite (ih (a + y) h)).1
      exact this xs _ hfin
    have h1 := add_exact hs (hx x (by simp)) ((abs_add_le _ _).trans (by linarith)) hF
    rw [ih (s + x) hfin (by rw [h1]; exact dvd_add hs (hx x (by simp))) (fun y hy => hx y (by simp [hy])) ?_, h1]
    · ring
    · rw [h1]
      have := abs_add_le s.units x.units
      linarith

/-- Signal and components on a common grid that is not too fine: the residue is exact. -/
theorem residue_exact {S : List (Ieee f e E)} {rows : List (List (Ieee f e E))} {res : List (Ieee f e E)} (h : EMD.Spec.IsResidue S rows res)
    (hf : ∀ x ∈ res, x.isFinite = true) (i : Nat) (hi : i < S.length) (k : ℕ) (hS : (2 : ℤ) ^ k ∣ S[i].units)
    (hr : ∀ r ∈ rows, (2 : ℤ) ^ k ∣ (r.getD i (lit 0)).units)
    (hb : |S[i].units| + (rows.map (fun r => |(r.getD i (lit 0)).units|)).sum ≤ 2 ^ (f + 1 + k)) :
    S[i].units = (rows.map (fun r => (r.getD i (lit 0)).units)).sum + (res.getD i (lit 0)).units := by
  obtain ⟨s, hs, hr'⟩ := h.2 i hi
  rw [List.getElem?_eq_getElem hi, Option.some.injEq] at hs
  subst hs
  have hres : res.getD i (lit 0) = S[i] - EMD.Spec.colSum rows i := by
    rw [List.getD_eq_getElem?_getD, hr']; rfl
  have hfin := hf _ (List.mem_of_getElem? hr')
  have hz : (lit 0 : Ieee f e E).units = 0 := by rw [lit_zero]; rfl
  have hsum : (EMD.Spec.colSum rows i).units = (rows.map (fun r => (r.getD i (lit 0)).units)).sum := by
    have h2 : (EMD.Spec.colSum rows i).isFinite = true := by
      have := (add_finite (x := S[i]) (y := -EMD.Spec.colSum rows i) hfin).2
      rwa [neg_finite] at this
    unfold EMD.Spec.colSum at h2 ⊢
    rw [foldl_exact (k := k) _ _ h2 (by rw [hz]; exact dvd_zero _) ?_ ?_, hz, zero_add, List.map_map]
    · rfl
    · intro x hx
      obtain ⟨r, hr'', rfl⟩ := List.mem_map.1 hx
      exact hr r hr''
    · rw [hz, abs_zero, zero_add, List.map_map]
      have := abs_nonneg S[i].units
      show (rows.map (fun r => |(r.getD i (lit 0)).units|)).sum ≤ _
      linarith
  have hd : (2 : ℤ) ^ k ∣ (-EMD.Spec.colSum rows i).units := by
    rw [units_neg, hsum]
    refine Dvd.dvd.neg_right ?_ 
    clear hsum hb hres hfin h hr'
    induction rows with
    | nil => exact dvd_zero _
    | cons r rows ih =>
      rw [List.map_cons, List.sum_cons]
      exact dvd_add (hr r (by simp)) (ih (fun r' h' => hr r' (by simp [h'])))
  have hle : |(rows.map (fun r => (r.getD i (lit 0)).units)).sum| ≤ (rows.map (fun r => |(r.getD i (lit 0)).units|)).sum := by
    clear hsum hb hres hfin h hd hr hr'
    induction rows with
    | nil => simp
    | cons r rows ih =>
      simp only [List.map_cons, List.sum_cons]
      exact (abs_add_le _ _).trans (add_le_add_right ih _)
  have hx := add_exact (x := S[i]) (y := -EMD.Spec.colSum rows i) hS hd ?_ hfin
  · rw [units_neg, hsum] at hx
    rw [hres]
    have : (S[i] - EMD.Spec.colSum rows i).units = S[i].units + -(rows.map (fun r => (r.getD i (lit 0)).units)).sum := hx
    rw [this]
    ring
  · rw [units_neg, hsum]
    refine (abs_add_le _ _).trans ?_
    rw [abs_neg]
    linarith

/-- Numbers of at least `2ᵖ` are multiples of `2ᵖ⁻ᶠ`, or of the unit if that is coarser. -/
theorem dvd_units (x : Ieee f e E) (p : ℤ) (h : x.val = 0 ∨ (2 : ℝ) ^ p ≤ |x.val|) : (2 : ℤ) ^ (p + e - f).toNat ∣ x.units := by
  cases x with
  | nan => exact dvd_zero _
  | inf s => exact dvd_zero _
  | num m hm =>
    show _ ∣ m
    by_cases hk : p + e - f ≤ 0
    · rw [Int.toNat_of_nonpos hk, pow_zero]
      exact one_dvd _
    · obtain ⟨k, hk'⟩ := Int.eq_ofNat_of_zero_le (show 0 ≤ p + e - f by omega)
      rw [hk', Int.toNat_natCast]
      rw [val_units] at h
      change ((m : ℝ) / 2 ^ e = 0 ∨ (2 : ℝ) ^ p ≤ |(m : ℝ) / 2 ^ e|) at h
      rcases h with h | h
      · have : (m : ℝ) = 0 := by
          have h2 : (2 : ℝ) ^ e ≠ 0 := by positivity
          exact (div_eq_zero_iff.1 h).resolve_right h2
        rw [show m = 0 by exact_mod_cast this]
        exact dvd_zero _
      · rw [abs_div, abs_of_pos (by positivity : (0 : ℝ) < 2 ^ e), le_div_iff₀ (by positivity), ← zpow_natCast, ← zpow_add₀ (by norm_num)] at h
        have h3 : p + (e : ℤ) = ((k + f : ℕ) : ℤ) := by push_cast; omega
        rw [h3, zpow_natCast] at h
        have h4 : 2 ^ (k + f) ≤ m.natAbs := by
          have : ((2 ^ (k + f) : ℕ) : ℝ) ≤ ((m.natAbs : ℕ) : ℝ) := by rw [Nat.cast_natAbs]; push_cast; exact h
          exact_mod_cast this
        obtain ⟨c, hc, -⟩ := rep_form hm.1
        have h5 : k ≤ excess f m.natAbs := by
          have hm0 : m.natAbs ≠ 0 := by have := Nat.two_pow_pos (k + f); omega
          have : k + f ≤ Nat.log2 m.natAbs := (Nat.le_log2 hm0).2 h4
          rw [excess]
          omega
        rw [hc]
        exact Dvd.dvd.mul_left (pow_dvd_pow 2 h5) c

theorem units_cast (hw : Wider f e E f' e' E') (x : Ieee f e E) : (cast x : Ieee f' e' E').units = x.units * 2 ^ (e' - e) := by
  cases x with
  | nan => exact (zero_mul _).symm
  | inf s => exact (zero_mul _).symm
  | num m h =>
    obtain ⟨h', hc⟩ := cast_num hw m h
    rw [hc]
    rfl

/-- **C160, exact reconstruction.**  At a sample where the signal and the components are zero or of magnitude `2ᵖ` at least, and together at most
`2ᵖ⁺¹⁺ᶠ'⁻ᶠ`, no rounding happens in the wide format: components and residue add up to the sample exactly.  For single precision signals the range is `2³⁰`, for half
precision `2⁴³`. -/
theorem C160_exact (hw : Wider f e E f' e' E') {env : List (Ieee f e E) → List (Ieee f e E × Ieee f e E) → PyM (List (Ieee f' e' E'))}
    {cfg : EMD.Cfg (Ieee f' e' E')} {fuel : Nat} {S : List (Ieee f e E)} {T : Option (List (Ieee f e E))} {m : Int} {R : EMD.Result (Ieee f' e' E')}
    (h : Mixed.emd formats fuel env cfg S T m = .ok R) (hf : ∀ x ∈ R.residue, x.isFinite = true) (i : Nat) (hi : i < S.length) (p : ℤ)
    (hlow : ∀ v ∈ S[i].val :: R.imfs.map (fun r => (r.getD i (lit 0)).val), v = 0 ∨ (2 : ℝ) ^ p ≤ |v|)
    (hhigh : |S[i].val| + (R.imfs.map (fun r => |(r.getD i (lit 0)).val|)).sum ≤ (2 : ℝ) ^ (p + 1 + f' - f)) :
    S[i].val = (R.imfs.map (fun r => (r.getD i (lit 0)).val)).sum + (R.residue.getD i (lit 0)).val := by
  obtain ⟨T', imfs, -, -, hlen, -, himf, hres, -⟩ := Mixed.C160_components h
  have hrow : ∀ r ∈ R.imfs, ∃ y : Ieee f e E, r.getD i (lit 0) = cast y := by
    intro r hr
    have hr : r ∈ imfs.map (List.map (formats (f' := f') (e' := e') (E' := E')).up) := by
      rcases himf with h | h <;> rw [h] at hr
      · exact hr
      · obtain ⟨x, hx, rfl⟩ := List.mem_map.1 hr
        exact List.mem_map.2 ⟨x, List.dropLast_subset _ hx, rfl⟩
    obtain ⟨x, hx, rfl⟩ := List.mem_map.1 hr
    have hxi : i < x.length := by rw [hlen x hx]; exact hi
    refine ⟨x[i], ?_⟩
    rw [List.getD_eq_getElem?_getD, List.getElem?_map, List.getElem?_eq_getElem hxi]
    rfl
  have hSi : (S.map (formats (f' := f') (e' := e') (E' := E')).up)[i]'(by simpa using hi) = cast S[i] := by
    rw [List.getElem_map]; rfl
  have hval : (cast S[i] : Ieee f' e' E').val = S[i].val := (C160_conversion hw S[i]).2.1
  have hdvd : ∀ y : Ieee f e E, (y.val = 0 ∨ (2 : ℝ) ^ p ≤ |y.val|) → (2 : ℤ) ^ ((p + e - f).toNat + (e' - e)) ∣ (cast y : Ieee f' e' E').units := by
    intro y hy
    rw [units_cast hw, pow_add]
    exact mul_dvd_mul (dvd_units y p hy) dvd_rfl
  have key := residue_exact hres hf i (by simpa using hi) ((p + e - f).toNat + (e' - e)) ?_ ?_ ?_
  · rw [hSi] at key
    have hP : (0 : ℝ) < 2 ^ e' := by positivity
    rw [← hval, val_units, val_units (R.residue.getD i (lit 0)), key]
    have hsum : ∀ l : List (List (Ieee f' e' E')), (l.map (fun r => (r.getD i (lit 0)).val)).sum =
        ((l.map (fun r => (r.getD i (lit 0)).units)).sum : ℤ) / (2 : ℝ) ^ e' := by
      intro l
      induction l with
      | nil => simp
      | cons r l ih => rw [List.map_cons, List.sum_cons, List.map_cons, List.sum_cons, ih, val_units, Int.cast_add, add_div]
    rw [hsum]
    push_cast
    ring
  · rw [hSi]
    exact hdvd _ (hlow _ (by simp))
  · intro r hr
    obtain ⟨y, hy⟩ := hrow r hr
    rw [hy]
    refine hdvd y ?_
    rw [← (C160_conversion (f' := f') (e' := e') (E' := E') hw y).2.1, ← hy]
    exact hlow _ (List.mem_cons_of_mem _ (List.mem_map.2 ⟨r, hr, rfl⟩))
  · rw [hSi]
    have hP : (0 : ℝ) < 2 ^ e' := by positivity
    have hsum : ∀ l : List (List (Ieee f' e' E')), (l.map (fun r => |(r.getD i (lit 0)).val|)).sum =
        ((l.map (fun r => |(r.getD i (lit 0)).units|)).sum : ℤ) / (2 : ℝ) ^ e' := by
      intro l
      induction l with
      | nil => simp
      | cons r l ih =>
        rw [List.map_cons, List.sum_cons, List.map_cons, List.sum_cons, ih, val_units, abs_div, abs_of_pos hP, Int.cast_add, add_div, Int.cast_abs]
    rw [← hval, val_units, abs_div, abs_of_pos hP, hsum, ← add_div, div_le_iff₀ hP, ← zpow_natCast, ← zpow_add₀ (by norm_num)] at hhigh
    have h2 : (2 : ℝ) ^ (p + 1 + f' - f + (e' : ℤ)) ≤ (2 : ℝ) ^ ((f' + 1 + ((p + e - f).toNat + (e' - e)) : ℕ) : ℤ) := by
      refine zpow_le_zpow_right₀ (by norm_num) ?_
      have := Int.self_le_toNat (p + e - f)
      have := hw.2.1
      push_cast
      omega
    rw [zpow_natCast] at h2
    have := hhigh.trans h2
    exact_mod_cast this

/-! ### A case: a signal in half precision, components and residue in double precision -/

namespace MixedCase

def halfWave : List F16 := [0, 3 / 10, -1 / 10, 7 / 10, -3 / 10, 5 / 10, 1 / 10, 9 / 10, 0, 2 / 10].map lit

def halfCfg : EMD.Cfg F64 := { EMD.Cfg.default with FIXE := 2, splineKind := .linear }

/-- The decomposition with linear envelopes. -/
def run : PyM (EMD.Result F64) := Mixed.emd formats 10 (Mixed.scipyEnv (formats : Mixed.Formats F16 F64) linSciPy .linear) halfCfg halfWave none (-1)

/-- Two components and a finite residue; at each sample the hypotheses of `C160_exact` hold with `p = -6` (in units of `2⁻¹⁰⁷⁴`) and the rows add up exactly. -/
example : okWith (fun R : EMD.Result F64 => R.rows.length == 3 && R.imfs.length == 2 && R.residue.all (fun x => x.isFinite) &&
      (List.range 10).all (fun i =>
        let vs := units (cast (halfWave.getD i (lit 0)) : F64) :: R.imfs.map (fun r => units (r.getD i (lit 0)))
        vs.all (fun v => decide (v = 0 ∨ 2 ^ 1068 ≤ |v|)) && decide ((vs.map (|·|)).sum ≤ 2 ^ (1068 + 43)) &&
        decide (vs.headD 0 = vs.tail.sum + units (R.residue.getD i (lit 0))))) run = true := by decide +kernel

/-- Each component is a row of half precision numbers.  The residue is not: at five of the ten samples it changes when it is converted to half precision. -/
theorem C160_not_narrow : okWith (fun R : EMD.Result F64 =>
      R.imfs.all (fun r => r.all (fun x => decide (cast (cast x : F16) = x))) &&
      R.residue.map (fun x => decide (cast (cast x : F16) = x)) == [true, false, true, true, true, false, false, false, true, false]) run = true := by
  decide +kernel

end MixedCase
end Ieee
end PyEMD
