import Verif.Props.Image2

/-!
# C134: the number of sifting iterations of the components of an image
-/

set_option linter.unusedSectionVars false

namespace PyEMD

open Img Img.Spec

section Gen
variable {α : Type} [Add α] [Sub α] [Mul α] [Div α] [Neg α] [LT α] [LE α] [BEq α]
  [DecidableLT α] [DecidableLE α] [NpScalar α]

/-- One sifting iteration: the proto-IMF `before`, the mean of its envelopes and what is left without it. -/
structure Step (α : Type) where
  before : Img α
  mean : Img α
  after : Img α

namespace Img.Spec

/-- The list of iterations `ss` (in order) meets the stopping rule of `cfg`; `P` is the test for being a component.
* `FIXE = k > 0`: more than `k` iterations;
* `FIXE = 0`, `FIXE_H = k > 0`: more than `k` iterations, and the last `k` all pass the test;
* both 0: the last iteration passes the test. -/
def Stops (cfg : Cfg2 α) (P : Step α → Prop) (ss : List (Step α)) : Prop :=
  (cfg.FIXE ≠ 0 ∧ cfg.FIXE + 1 ≤ ss.length) ∨
  (cfg.FIXE = 0 ∧ cfg.FIXE_H ≠ 0 ∧ cfg.FIXE_H + 1 ≤ ss.length ∧ ∀ s ∈ ss.drop (ss.length - cfg.FIXE_H), P s) ∨
  (cfg.FIXE = 0 ∧ cfg.FIXE_H = 0 ∧ ∃ s, ss.getLast? = some s ∧ P s)

/-- `ss` is what has been done when sifting ends with `x`: the rule is met now, `x` has too few extrema, or the limit is used up;
the rule was never met before. -/
def EndsWith (cfg : Cfg2 α) (P : Step α → Prop) (Few : Img α → Prop) (ss : List (Step α)) (x : Img α) : Prop :=
  ss.length ≤ cfg.MAX_ITERATION ∧ (∀ j < ss.length, ¬ Stops cfg P (ss.take j)) ∧
    (Stops cfg P ss ∨ Few x ∨ ss.length = cfg.MAX_ITERATION)

end Img.Spec

/-- `nH` counts the iterations at the end of `ss` that pass the test, without the very first one. -/
def Tail (P : Step α → Prop) (ss : List (Step α)) (nH : Nat) : Prop :=
  ∀ j, 1 ≤ j → ((j + 1 ≤ ss.length ∧ ∀ s ∈ ss.drop (ss.length - j), P s) ↔ j ≤ nH)

theorem Tail.nil (P : Step α → Prop) : Tail P [] 0 := by
  intro j hj
  simp only [List.length_nil]
  omega

theorem Tail.one (P : Step α → Prop) (s : Step α) : Tail P [s] 0 := by
  intro j hj
  simp only [List.length_singleton]
  omega

theorem drop_snoc (ss : List (Step α)) (s : Step α) {j : Nat} (hj : 1 ≤ j) :
    (ss ++ [s]).drop ((ss ++ [s]).length - j) = ss.drop (ss.length - (j - 1)) ++ [s] := by
  have e : (ss ++ [s]).length - j = ss.length - (j - 1) := by simp only [List.length_append, List.length_singleton]; omega
  rw [e, List.drop_append_of_le_length (by omega)]

theorem Tail.pass {P : Step α → Prop} {ss : List (Step α)} {nH : Nat} (h : Tail P ss nH) (hs : 1 ≤ ss.length) (s : Step α) (hP : P s) :
    Tail P (ss ++ [s]) (nH + 1) := by
  intro j hj
  rw [drop_snoc _ _ hj]
  simp only [List.length_append, List.length_singleton, List.mem_append, List.mem_singleton]
  by_cases h1 : j = 1
  · subst h1
    simp only [Nat.sub_self, Nat.sub_zero, List.drop_length, List.not_mem_nil, false_or]
    constructor
    · intro _; omega
    · intro _; exact ⟨by omega, fun t ht => ht ▸ hP⟩
  · rw [show (j ≤ nH + 1) = (j - 1 ≤ nH) from by simp only [eq_iff_iff]; omega, ← h (j - 1) (by omega)]
    constructor
    · rintro ⟨h2, h3⟩
      exact ⟨by omega, fun t ht => h3 t (.inl ht)⟩
    · rintro ⟨h2, h3⟩
      refine ⟨by omega, fun t ht => ?_⟩
      rcases ht with ht | ht
      · exact h3 t ht
      · exact ht ▸ hP

theorem Tail.fail (P : Step α → Prop) (ss : List (Step α)) (s : Step α) (hP : ¬ P s) : Tail P (ss ++ [s]) 0 := by
  intro j hj
  rw [drop_snoc _ _ hj]
  constructor
  · rintro ⟨-, h⟩
    exact absurd (h s (by simp)) hP
  · intro h; omega

theorem Tail.stops {cfg : Cfg2 α} {P : Step α → Prop} {ss : List (Step α)} {nH : Nat} (h : Tail P ss nH) (hF : cfg.FIXE = 0)
    (hH : cfg.FIXE_H ≠ 0) : Stops cfg P ss ↔ cfg.FIXE_H ≤ nH := by
  rw [← h cfg.FIXE_H (by omega)]
  unfold Stops
  constructor
  · rintro (⟨h1, -⟩ | ⟨-, -, h1, h2⟩ | ⟨-, h1, -⟩)
    · exact absurd hF h1
    · exact ⟨h1, h2⟩
    · exact absurd h1 hH
  · rintro ⟨h1, h2⟩
    exact .inr (.inl ⟨hF, hH, h1, h2⟩)

theorem stops_fixe {cfg : Cfg2 α} {P : Step α → Prop} {ss : List (Step α)} (hF : cfg.FIXE ≠ 0) :
    Stops cfg P ss ↔ cfg.FIXE + 1 ≤ ss.length := by
  unfold Stops
  constructor
  · rintro (⟨-, h1⟩ | ⟨h1, -⟩ | ⟨h1, -⟩)
    · exact h1
    · exact absurd h1 hF
    · exact absurd h1 hF
  · intro h; exact .inl ⟨hF, h⟩

theorem stops_default {cfg : Cfg2 α} {P : Step α → Prop} {ss : List (Step α)} {s : Step α} (hF : cfg.FIXE = 0) (hH : cfg.FIXE_H = 0) :
    Stops cfg P (ss ++ [s]) ↔ P s := by
  unfold Stops
  simp [hF, hH]

/-- No rule was met after `j ≤ ss.length` iterations. -/
theorem prefixes_snoc {cfg : Cfg2 α} {P : Step α → Prop} {ss : List (Step α)} (s : Step α)
    (h : ∀ j < ss.length + 1, ¬ Stops cfg P (ss.take j)) : ∀ j < (ss ++ [s]).length, ¬ Stops cfg P ((ss ++ [s]).take j) := by
  intro j hj
  simp only [List.length_append, List.length_singleton] at hj
  rw [List.take_append_of_le_length (by omega)]
  exact h j hj

theorem prefixes_all {cfg : Cfg2 α} {P : Step α → Prop} {ss : List (Step α)} (h : ∀ j < ss.length, ¬ Stops cfg P (ss.take j))
    (h' : ¬ Stops cfg P ss) : ∀ j < ss.length + 1, ¬ Stops cfg P (ss.take j) := by
  intro j hj
  by_cases e : j = ss.length
  · rw [e, List.take_length]; exact h'
  · exact h j (by omega)

/-- **C134** Iterations that end by the rule of `FIXE = k`, `1 ≤ k < MAX_ITERATION`: exactly `k + 1`, unless the extrema run out before. -/
theorem C134_fixe_partial (cfg : Cfg2 α) (P : Step α → Prop) (Few : Img α → Prop) (ss : List (Step α)) (x : Img α) (hF : 1 ≤ cfg.FIXE)
    (hM : cfg.FIXE < cfg.MAX_ITERATION) (h : EndsWith cfg P Few ss x) : ss.length = cfg.FIXE + 1 ∨ (ss.length ≤ cfg.FIXE ∧ Few x) := by
  obtain ⟨-, h2, h3⟩ := h
  have hle : ss.length ≤ cfg.FIXE + 1 := by
    by_contra hc
    exact h2 (cfg.FIXE + 1) (by omega) ((stops_fixe (by omega)).2 (by rw [List.length_take]; omega))
  by_cases he : ss.length = cfg.FIXE + 1
  · exact .inl he
  · refine .inr ⟨by omega, ?_⟩
    rcases h3 with h3 | h3 | h3
    · have := (stops_fixe (by omega)).1 h3; omega
    · exact h3
    · omega

/-- **C134** Iterations that end by the rule of `FIXE_H = k ≥ 1`: at least `k` (in fact `k + 1`) and the last `k` all pass the test, unless
the extrema run out before or `MAX_ITERATION` is used up. -/
theorem C134_fixe_h (cfg : Cfg2 α) (P : Step α → Prop) (Few : Img α → Prop) (ss : List (Step α)) (x : Img α) (hF : cfg.FIXE = 0)
    (hH : 1 ≤ cfg.FIXE_H) (h : EndsWith cfg P Few ss x) :
    (cfg.FIXE_H < ss.length ∧ ∀ s ∈ ss.drop (ss.length - cfg.FIXE_H), P s) ∨ Few x ∨ ss.length = cfg.MAX_ITERATION := by
  rcases h.2.2 with (⟨h1, -⟩ | ⟨-, -, h1, h2⟩ | ⟨-, h1, -⟩) | h3 | h3
  · exact absurd hF h1
  · exact .inl ⟨h1, h2⟩
  · omega
  · exact .inr (.inl h3)
  · exact .inr (.inr h3)

/-- Three iterations that leave the image as it is: the rule of `FIXE_H = 2` is met after the third and not before. -/
example : EndsWith { (BEMD.Cfg.default (α := ℚ)) with FIXE := 0, FIXE_H := 2 } (fun s => s.after = s.before) (fun _ => False)
    (List.replicate 3 ⟨board, Img.zeros 7 7, board⟩) board := by
  refine ⟨by decide, fun j hj hs => ?_, .inl (.inr (.inl ⟨rfl, by decide, by decide, by simp⟩))⟩
  rcases hs with ⟨h, -⟩ | ⟨-, -, h, -⟩ | ⟨-, h, -⟩
  · exact h rfl
  · simp at h hj; omega
  · cases h

namespace BEMD

/-- The mean of the envelopes of `h`. -/
def Spec.EnvelopeMean (ext : Ext α) (h m : Img α) : Prop :=
  ∃ lower upper, extractMaxMinSpline ext h (extractMinimaPositions ext h) (extractMaximaPositions ext h) = .ok (lower, upper) ∧
    m = (lower.add upper).map (fun x => lit (1 / 2) * x)

/-- The iterations `ss` lead from `h` to `x`; none of them starts with fewer than two maxima or minima. -/
inductive Spec.Run (ext : Ext α) : Img α → List (Step α) → Img α → Prop
  | nil (h : Img α) : Run ext h [] h
  | cons {h m x : Img α} {ss : List (Step α)} : ¬ Spec.FewExtrema ext h → Spec.EnvelopeMean ext h m → Run ext (h.sub m) ss x →
      Run ext h (⟨h, m, h.sub m⟩ :: ss) x

/-- The iteration passes the test for being a component: the mean of the envelopes is nearly constant, or nothing has changed, or
little is left. -/
def Spec.Passes (cfg : Cfg2 α) (s : Step α) : Prop :=
  (∀ v ∈ s.mean.data, pyAbs (v - s.mean.mean) < cfg.meanThr) ∨ s.after.allclose (1 / 100) s.before = true ∨
    (s.after.map pyAbs).mean < cfg.meanThr

open BEMD.Spec

theorem check_iff (cfg : Cfg2 α) (s : Step α) : checkProtoImf cfg s.after s.before s.mean = true ↔ Passes cfg s := by
  unfold checkProtoImf Passes
  by_cases h1 : ∀ v ∈ s.mean.data, pyAbs (v - s.mean.mean) < cfg.meanThr
  · rw [if_pos (by simpa [Img.map] using h1)]
    simp only [true_iff]
    exact .inl h1
  · rw [if_neg (by simpa [Img.map] using h1)]
    by_cases h2 : s.after.allclose (1 / 100) s.before = true
    · rw [if_pos h2]
      simp only [true_iff]
      exact .inr (.inl h2)
    · rw [if_neg h2]
      by_cases h3 : (s.after.map pyAbs).mean < cfg.meanThr
      · rw [if_pos h3]
        simp only [true_iff]
        exact .inr (.inr h3)
      · rw [if_neg h3]
        simp only [Bool.false_eq_true, false_iff, not_or]
        exact ⟨h1, h2, h3⟩

theorem sift_run {ext : Ext α} {cfg : Cfg2 α} : ∀ {k nH : Nat} {h x : Img α} {done : List (Step α)},
    sift ext cfg k done.length nH h = .ok x → done.length + k = cfg.MAX_ITERATION →
    (cfg.FIXE = 0 → cfg.FIXE_H ≠ 0 → Tail (Passes cfg) done nH) → (∀ j < done.length + 1, ¬ Stops cfg (Passes cfg) (done.take j)) →
    ∃ ss, Run ext h ss x ∧ EndsWith cfg (Passes cfg) (FewExtrema ext) (done ++ ss) x := by
  intro k
  induction k with
  | zero =>
    intro nH h x done hx hk _ hno
    simp only [sift] at hx
    cases hx
    refine ⟨[], .nil _, ?_⟩
    rw [List.append_nil]
    exact ⟨by omega, fun j hj => hno j (by omega), .inr (.inr (by omega))⟩
  | succ k ih =>
    intro nH h x done hx hk hT hno
    simp only [sift] at hx
    split at hx
    · rename_i hmany
      have hmany' : ¬ FewExtrema ext h := by unfold FewExtrema; omega
      obtain ⟨env, henv, hx⟩ := bind_eq_ok.1 hx
      have hm : EnvelopeMean ext h ((env.1.add env.2).map (fun x => lit (1 / 2) * x)) := ⟨env.1, env.2, henv, rfl⟩
      split at hx
      · cases hx
      · generalize (env.1.add env.2).map (fun x => lit (1 / 2) * x) = m at hx hm
        have hlen : (done ++ [(⟨h, m, h.sub m⟩ : Step α)]).length = done.length + 1 := by simp
        have hstop : x = h.sub m → Stops cfg (Passes cfg) (done ++ [⟨h, m, h.sub m⟩]) →
            ∃ ss, Run ext h ss x ∧ EndsWith cfg (Passes cfg) (FewExtrema ext) (done ++ ss) x := by
          rintro rfl hs
          exact ⟨[⟨h, m, h.sub m⟩], .cons hmany' hm (.nil _), by omega, prefixes_snoc _ hno, .inl hs⟩
        have hgo : ∀ nH', sift ext cfg k (done.length + 1) nH' (h.sub m) = .ok x →
            (cfg.FIXE = 0 → cfg.FIXE_H ≠ 0 → Tail (Passes cfg) (done ++ [⟨h, m, h.sub m⟩]) nH') →
            ¬ Stops cfg (Passes cfg) (done ++ [⟨h, m, h.sub m⟩]) →
            ∃ ss, Run ext h ss x ∧ EndsWith cfg (Passes cfg) (FewExtrema ext) (done ++ ss) x := by
          intro nH' hr hT' hs
          rw [← hlen] at hr
          obtain ⟨ss, h1, h2⟩ := ih hr (by omega) hT' (prefixes_all (prefixes_snoc _ hno) hs)
          refine ⟨⟨h, m, h.sub m⟩ :: ss, .cons hmany' hm h1, ?_⟩
          rw [List.append_assoc] at h2
          exact h2
        have hchk := check_iff cfg (⟨h, m, h.sub m⟩ : Step α)
        simp only at hchk
        by_cases hF : cfg.FIXE ≠ 0
        · rw [if_pos hF] at hx
          split at hx
          · cases hx
            exact hstop rfl ((stops_fixe hF).2 (by omega))
          · exact hgo _ hx (fun h0 => absurd h0 hF) (fun hs => by have := (stops_fixe hF).1 hs; omega)
        · rw [if_neg hF] at hx
          simp only [ne_eq, Decidable.not_not] at hF
          by_cases hH : cfg.FIXE_H ≠ 0
          · rw [if_pos hH] at hx
            have hT0 := hT hF hH
            split at hx
            · rename_i hn
              have hnil : done = [] := List.length_eq_zero_iff.1 (by omega)
              subst hnil
              have hT1 := Tail.one (Passes cfg) (⟨h, m, h.sub m⟩ : Step α)
              have hnH : nH = 0 := by
                by_contra h0
                have := (hT0 1 (le_refl 1)).2 (by omega)
                simp at this
              subst hnH
              refine hgo 0 hx (fun _ _ => hT1) (fun hs => ?_)
              have := (hT1.stops hF hH).1 hs
              omega
            · rename_i hn
              by_cases hp : Passes cfg ⟨h, m, h.sub m⟩
              · rw [if_pos (hchk.2 hp)] at hx
                have hT1 := hT0.pass (by omega) _ hp
                split at hx
                · rename_i hle
                  cases hx
                  exact hstop rfl ((hT1.stops hF hH).2 hle)
                · rename_i hle
                  exact hgo _ hx (fun _ _ => hT1) (fun hs => hle ((hT1.stops hF hH).1 hs))
              · rw [if_neg (fun hc => hp (hchk.1 hc))] at hx
                have hT1 := Tail.fail (Passes cfg) done _ hp
                split at hx
                · omega
                · rename_i hle
                  exact hgo _ hx (fun _ _ => hT1) (fun hs => hle ((hT1.stops hF hH).1 hs))
          · rw [if_neg hH] at hx
            simp only [ne_eq, Decidable.not_not] at hH
            split at hx
            · rename_i hp
              cases hx
              exact hstop rfl ((stops_default hF hH).2 (hchk.1 hp))
            · rename_i hp
              exact hgo _ hx (fun _ h0 => absurd hH h0) (fun hs => hp (hchk.2 ((stops_default hF hH).1 hs)))
    · rename_i hfew
      cases hx
      refine ⟨[], .nil _, ?_⟩
      rw [List.append_nil]
      exact ⟨by omega, fun j hj => hno j (by omega), .inr (.inl (by unfold FewExtrema; omega))⟩

/-- Every component the outer loop of BEMD adds is what is left of the image, sifted until the stopping rule is met. -/
theorem loop_run {ext : Ext α} {cfg : Cfg2 α} {image : Img α} {m : Int} : ∀ {fuel : Nat} {imfs out : List (Img α)},
    loop ext cfg image m fuel imfs = .ok out → imfs <+: out ∧
    ∀ (j : Nat) (c : Img α), imfs.length ≤ j → out[j]? = some c → ∃ ss,
      Run ext (image.sub (Img.sum image.rows image.cols (out.take j))) ss c ∧ EndsWith cfg (Passes cfg) (FewExtrema ext) ss c := by
  intro fuel
  induction fuel with
  | zero => intro imfs out h; simp [loop] at h
  | succ fuel ih =>
    intro imfs out h
    simp only [loop, bind_eq_ok] at h
    obtain ⟨x, hx, h⟩ := h
    have hx' := sift_run (done := []) (ext := ext) (cfg := cfg) hx (by simp) (fun _ _ => Tail.nil _) (by
      intro j hj
      have : j = 0 := by simpa using hj
      subst this
      simp [Stops])
    have key : ∀ out : List (Img α), imfs ++ [x] <+: out → ∃ ss,
        Run ext (image.sub (Img.sum image.rows image.cols (out.take imfs.length))) ss x ∧
          EndsWith cfg (Passes cfg) (FewExtrema ext) ss x := by
      rintro out ⟨t, rfl⟩
      rw [List.append_assoc, List.take_left]
      exact hx'
    split at h
    · injection h with h
      subst h
      refine ⟨List.prefix_append _ _, fun j c hj hc => ?_⟩
      have hj' : j = imfs.length := by
        have := (List.getElem?_eq_some_iff.1 hc).1
        simp at this
        omega
      subst hj'
      simp at hc
      subst hc
      exact key _ (List.prefix_refl _)
    · obtain ⟨hp, hall⟩ := ih h
      refine ⟨(List.prefix_append _ _).trans hp, fun j c hj hc => ?_⟩
      by_cases hj' : j = imfs.length
      · subst hj'
        have : out[imfs.length]? = some x := by
          obtain ⟨t, rfl⟩ := hp
          simp
        rw [this] at hc
        injection hc with hc
        subst hc
        exact key _ hp
      · exact hall j c (by simp; omega) hc

/-- **C134** (BEMD) What is left of the image is sifted until the stopping rule is met.  With `FIXE = k` these are `k + 1`
iterations (`C62_counterexample`); with `FIXE_H = k` at least `k + 1`, the last `k` of which pass the test; the rest of the image, if it
is not close to zero, is appended as it is. -/
theorem C134_bemd_partial (ext : Ext α) (cfg : Cfg2 α) (fuel : Nat) (image : Img α) (m : Int) (out : List (Img α))
    (h : bemd ext fuel cfg image m = .ok out) : ∃ n, n ≤ out.length ∧ out.length ≤ n + 1 ∧ ∀ (j : Nat) (c : Img α), j < n → out[j]? = some c →
      ∃ ss, Run ext (image.sub (Img.sum image.rows image.cols (out.take j))) ss c ∧ EndsWith cfg (Passes cfg) (FewExtrema ext) ss c := by
  unfold bemd at h
  obtain ⟨comps, hl, h⟩ := bind_eq_ok.1 h
  rw [pure_eq_ok] at h
  obtain ⟨-, hall⟩ := loop_run hl
  have hp : comps <+: out := by
    rw [← h]
    split
    · exact List.prefix_refl _
    · exact List.prefix_append _ _
  refine ⟨comps.length, hp.length_le, ?_, fun j c hj hc => ?_⟩
  · rw [← h]; split <;> simp
  · obtain ⟨t, rfl⟩ := hp
    rw [List.getElem?_append_left hj] at hc
    rw [List.take_append_of_le_length (by omega)]
    exact hall j c (by simp) hc

example : okWith (fun out => decide (out.length = 3)) (bemd sampleExt 2 { (Cfg.default (α := ℚ)) with FIXE := 0, FIXE_H := 2 } hills 2) = true := by
  decide +kernel

end BEMD

namespace EMD2D

/-- More than four minima and more than four maxima. -/
def Spec.ManyPeaks (im : Img α) : Prop := ∃ e, findExtrema im = .ok e ∧ 4 < e.1.length ∧ 4 < e.2.length

/-- At most four minima or at most four maxima. -/
def Spec.FewPeaks (im : Img α) : Prop := ∃ e, findExtrema im = .ok e ∧ (e.1.length ≤ 4 ∨ e.2.length ≤ 4)

/-- The iterations `ss` lead from `h` to `x`.  As in the code every iteration first takes the mean `m0` of the one before away once
more (see C61). -/
inductive Spec.Run (sbs : Surface α) : Img α → Img α → List (Step α) → Img α → Prop
  | nil (h m0 : Img α) : Run sbs h m0 [] h
  | cons {h m0 m x : Img α} {ss : List (Step α)} : Spec.ManyPeaks h → Spec.EnvelopeMean sbs (h.sub m0) m →
      Run sbs ((h.sub m0).sub m) m ss x → Run sbs h m0 (⟨h.sub m0, m, (h.sub m0).sub m⟩ :: ss) x

/-- The iteration passes the test for being a component: the mean of the envelopes is nearly constant, or nothing has changed, or
little is left, in absolute values or in squares. -/
def Spec.Passes (cfg : Cfg2 α) (s : Step α) : Prop :=
  (∀ v ∈ s.mean.data, pyAbs (v - s.mean.mean) < cfg.meanThr) ∨ s.after.allclose (1 / 100000) s.before = true ∨
    (s.after.map pyAbs).mean < cfg.meanThr ∨ (s.after.map (fun v => v * v)).mean < cfg.mseThr

open EMD2D.Spec

theorem check_iff (cfg : Cfg2 α) (s : Step α) : checkProtoImf cfg s.after s.before s.mean = true ↔ Passes cfg s := by
  unfold checkProtoImf Passes
  by_cases h1 : ∀ v ∈ s.mean.data, pyAbs (v - s.mean.mean) < cfg.meanThr
  · rw [if_pos (by simpa [Img.map] using h1)]
    simp only [true_iff]
    exact .inl h1
  · rw [if_neg (by simpa [Img.map] using h1)]
    by_cases h2 : s.after.allclose (1 / 100000) s.before = true
    · rw [if_pos h2]
      simp only [true_iff]
      exact .inr (.inl h2)
    · rw [if_neg h2]
      by_cases h3 : (s.after.map pyAbs).mean < cfg.meanThr
      · rw [if_pos h3]
        simp only [true_iff]
        exact .inr (.inr (.inl h3))
      · rw [if_neg h3]
        by_cases h4 : (s.after.map (fun v => v * v)).mean < cfg.mseThr
        · rw [if_pos h4]
          simp only [true_iff]
          exact .inr (.inr (.inr h4))
        · rw [if_neg h4]
          simp only [Bool.false_eq_true, false_iff, not_or]
          exact ⟨h1, h2, h3, h4⟩

theorem sift_run {sbs : Surface α} {cfg : Cfg2 α} : ∀ {k nH : Nat} {h m0 x : Img α} {fin : Bool} {done : List (Step α)},
    sift sbs cfg k done.length nH h m0 = .ok (x, fin) → done.length + k = cfg.MAX_ITERATION →
    (cfg.FIXE = 0 → cfg.FIXE_H ≠ 0 → Tail (Passes cfg) done nH) → (∀ j < done.length + 1, ¬ Stops cfg (Passes cfg) (done.take j)) →
    ∃ ss, Run sbs h m0 ss x ∧ EndsWith cfg (Passes cfg) (FewPeaks) (done ++ ss) x := by
  intro k
  induction k with
  | zero =>
    intro nH h m0 x fin done hx hk _ hno
    simp only [sift] at hx
    cases hx
    refine ⟨[], .nil _ _, ?_⟩
    rw [List.append_nil]
    exact ⟨by omega, fun j hj => hno j (by omega), .inr (.inr (by omega))⟩
  | succ k ih =>
    intro nH h m0 x fin done hx hk hT hno
    simp only [sift] at hx
    obtain ⟨e, he, hx⟩ := bind_eq_ok.1 hx
    split at hx
    · rename_i hmany
      have hmany' : ManyPeaks h := ⟨e, he, by omega, by omega⟩
      obtain ⟨env, henv, hx⟩ := bind_eq_ok.1 hx
      have hm : EnvelopeMean sbs (h.sub m0) ((env.1.add env.2).map (fun x => lit (1 / 2) * x)) := ⟨env.1, env.2, henv, rfl⟩
      generalize (env.1.add env.2).map (fun x => lit (1 / 2) * x) = m at hx hm
      have hlen : (done ++ [(⟨(h.sub m0), m, (h.sub m0).sub m⟩ : Step α)]).length = done.length + 1 := by simp
      have hstop : x = (h.sub m0).sub m → Stops cfg (Passes cfg) (done ++ [⟨(h.sub m0), m, (h.sub m0).sub m⟩]) →
          ∃ ss, Run sbs h m0 ss x ∧ EndsWith cfg (Passes cfg) (FewPeaks) (done ++ ss) x := by
        rintro rfl hs
        exact ⟨[⟨(h.sub m0), m, (h.sub m0).sub m⟩], .cons hmany' hm (.nil _ _), by omega, prefixes_snoc _ hno, .inl hs⟩
      have hgo : ∀ nH', sift sbs cfg k (done.length + 1) nH' ((h.sub m0).sub m) m = .ok (x, fin) →
          (cfg.FIXE = 0 → cfg.FIXE_H ≠ 0 → Tail (Passes cfg) (done ++ [⟨(h.sub m0), m, (h.sub m0).sub m⟩]) nH') →
          ¬ Stops cfg (Passes cfg) (done ++ [⟨(h.sub m0), m, (h.sub m0).sub m⟩]) →
          ∃ ss, Run sbs h m0 ss x ∧ EndsWith cfg (Passes cfg) (FewPeaks) (done ++ ss) x := by
        intro nH' hr hT' hs
        rw [← hlen] at hr
        obtain ⟨ss, h1, h2⟩ := ih hr (by omega) hT' (prefixes_all (prefixes_snoc _ hno) hs)
        refine ⟨⟨(h.sub m0), m, (h.sub m0).sub m⟩ :: ss, .cons hmany' hm h1, ?_⟩
        rw [List.append_assoc] at h2
        exact h2
      have hchk := check_iff cfg (⟨(h.sub m0), m, (h.sub m0).sub m⟩ : Step α)
      simp only at hchk
      by_cases hF : cfg.FIXE ≠ 0
      · rw [if_pos hF] at hx
        split at hx
        · cases hx
          exact hstop rfl ((stops_fixe hF).2 (by omega))
        · exact hgo _ hx (fun h0 => absurd h0 hF) (fun hs => by have := (stops_fixe hF).1 hs; omega)
      · rw [if_neg hF] at hx
        simp only [ne_eq, Decidable.not_not] at hF
        by_cases hH : cfg.FIXE_H ≠ 0
        · rw [if_pos hH] at hx
          have hT0 := hT hF hH
          split at hx
          · rename_i hn
            have hnil : done = [] := List.length_eq_zero_iff.1 (by omega)
            subst hnil
            have hT1 := Tail.one (Passes cfg) (⟨(h.sub m0), m, (h.sub m0).sub m⟩ : Step α)
            have hnH : nH = 0 := by
              by_contra h0
              have := (hT0 1 (le_refl 1)).2 (by omega)
              simp at this
            subst hnH
            refine hgo 0 hx (fun _ _ => hT1) (fun hs => ?_)
            have := (hT1.stops hF hH).1 hs
            omega
          · rename_i hn
            by_cases hp : Passes cfg ⟨(h.sub m0), m, (h.sub m0).sub m⟩
            · rw [if_pos (hchk.2 hp)] at hx
              have hT1 := hT0.pass (by omega) _ hp
              split at hx
              · rename_i hle
                cases hx
                exact hstop rfl ((hT1.stops hF hH).2 hle)
              · rename_i hle
                exact hgo _ hx (fun _ _ => hT1) (fun hs => hle ((hT1.stops hF hH).1 hs))
            · rw [if_neg (fun hc => hp (hchk.1 hc))] at hx
              have hT1 := Tail.fail (Passes cfg) done _ hp
              split at hx
              · omega
              · rename_i hle
                exact hgo _ hx (fun _ _ => hT1) (fun hs => hle ((hT1.stops hF hH).1 hs))
        · rw [if_neg hH] at hx
          simp only [ne_eq, Decidable.not_not] at hH
          split at hx
          · rename_i hp
            cases hx
            exact hstop rfl ((stops_default hF hH).2 (hchk.1 hp))
          · rename_i hp
            exact hgo _ hx (fun _ h0 => absurd hH h0) (fun hs => hp (hchk.2 ((stops_default hF hH).1 hs)))
    · rename_i hfew
      cases hx
      refine ⟨[], .nil _ _, ?_⟩
      rw [List.append_nil]
      exact ⟨by omega, fun j hj => hno j (by omega), .inr (.inl (⟨e, he, by omega⟩))⟩

/-- Every component the outer loop of EMD2D adds is what is left of the image, sifted until the stopping rule is met. -/
theorem loop_run {sbs : Surface α} {cfg : Cfg2 α} {image ims : Img α} {m : Int} : ∀ {fuel : Nat} {imfs out : List (Img α)},
    loop sbs cfg image ims m fuel imfs = .ok out → imfs <+: out ∧
    ∀ (j : Nat) (c : Img α), imfs.length ≤ j → out[j]? = some c → ∃ ss,
      Run sbs (ims.sub (Img.sum image.rows image.cols (out.take j))) (Img.zeros image.rows image.cols) ss c ∧
        EndsWith cfg (Passes cfg) FewPeaks ss c := by
  intro fuel
  induction fuel with
  | zero => intro imfs out h; simp [loop] at h
  | succ fuel ih =>
    intro imfs out h
    simp only [loop, bind_eq_ok] at h
    obtain ⟨⟨x, fin⟩, hx, h⟩ := h
    simp only at h
    have hx' := sift_run (done := []) (sbs := sbs) (cfg := cfg) hx (by simp) (fun _ _ => Tail.nil _) (by
      intro j hj
      have : j = 0 := by simpa using hj
      subst this
      simp [Stops])
    have key : ∀ out : List (Img α), imfs ++ [x] <+: out → ∃ ss,
        Run sbs (ims.sub (Img.sum image.rows image.cols (out.take imfs.length))) (Img.zeros image.rows image.cols) ss x ∧
          EndsWith cfg (Passes cfg) FewPeaks ss x := by
      rintro out ⟨t, rfl⟩
      rw [List.append_assoc, List.take_left]
      exact hx'
    have hend : imfs ++ [x] = out → imfs <+: out ∧ ∀ (j : Nat) (c : Img α), imfs.length ≤ j → out[j]? = some c → ∃ ss,
        Run sbs (ims.sub (Img.sum image.rows image.cols (out.take j))) (Img.zeros image.rows image.cols) ss c ∧
        EndsWith cfg (Passes cfg) FewPeaks ss c := by
      rintro rfl
      refine ⟨List.prefix_append _ _, fun j c hj hc => ?_⟩
      have hj' : j = imfs.length := by
        have := (List.getElem?_eq_some_iff.1 hc).1
        simp at this
        omega
      subst hj'
      simp at hc
      subst hc
      exact key _ (List.prefix_refl _)
    split at h
    · injection h with h
      exact hend h
    · split at h
      · obtain ⟨hp, hall⟩ := ih h
        refine ⟨(List.prefix_append _ _).trans hp, fun j c hj hc => ?_⟩
        by_cases hj' : j = imfs.length
        · subst hj'
          have : out[imfs.length]? = some x := by
            obtain ⟨t, rfl⟩ := hp
            simp
          rw [this] at hc
          injection hc with hc
          subst hc
          exact key _ hp
        · exact hall j c (by simp; omega) hc
      · injection h with h
        exact hend h

theorem addLast_getElem (offset : α) : ∀ (l : List (Img α)) (j : Nat), j + 1 < l.length → (addLast offset l)[j]? = l[j]?
  | [], _, h => by simp at h
  | [_], j, h => by simp at h
  | x :: y :: r, 0, _ => by simp [addLast]
  | x :: y :: r, j + 1, h => by
    rw [addLast, List.getElem?_cons_succ, List.getElem?_cons_succ]
    · exact addLast_getElem offset (y :: r) j (by simpa using h)
    · simp

theorem addLast_last (offset : α) : ∀ (l : List (Img α)) (j : Nat), j + 1 = l.length →
    (addLast offset l)[j]? = l[j]?.map (fun c => c.map (fun v => v + offset))
  | [], _, h => by simp at h
  | [_], j, h => by
    have : j = 0 := by simpa using h
    subst this
    rfl
  | x :: y :: r, 0, h => by simp at h
  | x :: y :: r, j + 1, h => by
    rw [addLast, List.getElem?_cons_succ, List.getElem?_cons_succ]
    · exact addLast_last offset (y :: r) j (by simpa using h)
    · simp

/-- **C134** (EMD2D) The image is shifted and scaled to the range 0 to 1 and what is left of it is sifted until the stopping rule is
met; the rows are these components in the unit of the image, the last one with the offset (and, if it is not close to zero, the rest
comes last).  With `FIXE = k` these are `k + 1` iterations, with `FIXE_H = k` at least `k + 1`, the last `k` of which pass the test. -/
theorem C134_emd2d_partial (sbs : Surface α) (cfg : Cfg2 α) (fuel : Nat) (image : Img α) (m : Int) (out : List (Img α))
    (h : emd sbs fuel cfg image m = .ok out) : ∃ (mn mx : α) (comps : List (Img α)), npMinE image.data = .ok mn ∧ npMaxE image.data = .ok mx ∧
      comps.length ≤ out.length ∧ out.length ≤ comps.length + 1 ∧
      (∀ (j : Nat) (c : Img α), comps[j]? = some c → (j + 1 < out.length → out[j]? = some (c.map (fun x => x * (mx - mn)))) ∧
        (j + 1 = out.length → out[j]? = some ((c.map (fun x => x * (mx - mn))).map (fun x => x + mn))) ∧
        ∃ ss, Run sbs ((image.map (fun x => (x - mn) / (mx - mn))).sub (Img.sum image.rows image.cols (comps.take j)))
            (Img.zeros image.rows image.cols) ss c ∧ EndsWith cfg (Passes cfg) FewPeaks ss c) := by
  unfold emd at h
  obtain ⟨mn, hmn, h⟩ := bind_eq_ok.1 h
  obtain ⟨mx, hmx, h⟩ := bind_eq_ok.1 h
  simp only at h
  split at h
  · cases h
  · obtain ⟨comps, hl, h⟩ := bind_eq_ok.1 h
    rw [pure_eq_ok] at h
    obtain ⟨-, hall⟩ := loop_run hl
    refine ⟨mn, mx, comps, hmn, hmx, ?_⟩
    generalize hr : (if allclose0 ((image.map (fun x => (x - mn) / (mx - mn))).sub (Img.sum image.rows image.cols comps)).data = true
      then comps else comps ++ [(image.map (fun x => (x - mn) / (mx - mn))).sub (Img.sum image.rows image.cols comps)]) = rows at h
    have hp : comps <+: rows := by
      rw [← hr]
      split
      · exact List.prefix_refl _
      · exact List.prefix_append _ _
    have hlen : rows.length ≤ comps.length + 1 := by rw [← hr]; split <;> simp
    have hout : out.length = rows.length := by rw [← h, length_addLast, List.length_map]
    refine ⟨hout ▸ hp.length_le, hout ▸ hlen, fun j c hc => ?_⟩
    have hrj : rows[j]? = some c := by
      obtain ⟨t, rfl⟩ := hp
      rw [List.getElem?_append_left (List.getElem?_eq_some_iff.1 hc).1]
      exact hc
    refine ⟨fun hj => ?_, fun hj => ?_, hall j c (by simp) hc⟩
    · rw [← h, addLast_getElem _ _ _ (by rw [List.length_map]; omega), List.getElem?_map, hrj]
      rfl
    · rw [← h, addLast_last _ _ _ (by rw [List.length_map]; omega), List.getElem?_map, hrj]
      rfl

example : okWith (fun out => decide (2 ≤ out.length)) (emd flatSurface 2 { (Cfg.default (α := ℚ)) with FIXE_H := 2 } board 1) = true := by
  decide +kernel

/-- The documentation has "exactly `FIXE`" iterations per component: with `FIXE = 1` the component of `board` is not the result of one
iteration. -/
theorem C134_counterexample : ∃ x, sift flatSurface { (Cfg.default (α := ℚ)) with FIXE := 1 } 1000 0 0 board (Img.zeros 7 7) = .ok (x, true) ∧
    ¬ ∃ s, Run flatSurface board (Img.zeros 7 7) [s] x := by
  refine ⟨board.map (fun x => x - 3 / 4), by decide +kernel, ?_⟩
  rintro ⟨s, hs⟩
  cases hs with
  | cons h1 h2 h3 =>
    obtain ⟨l, u, e, hm⟩ := h2
    subst hm
    have k2 : okWith (fun e => decide (board.map (fun x => x - 3 / 4) ≠
        (board.sub (Img.zeros 7 7)).sub ((e.1.add e.2).map (fun x => lit (1 / 2) * x))))
        (extractMaxMinSpline flatSurface (board.sub (Img.zeros 7 7))) = true := by decide +kernel
    rw [e] at k2
    simp only [okWith, decide_eq_true_eq] at k2
    generalize hy : (board.sub (Img.zeros 7 7)).sub ((l.add u).map (fun x => lit (1 / 2) * x)) = y at h3 k2
    cases h3
    exact k2 rfl

end EMD2D
end Gen
end PyEMD
