import Verif.Model.InitImage
import Verif.Props.ImageNegation
import Verif.Props.Init

/-!
# C163: the options of `EMD2D`
-/

set_option linter.unusedSectionVars false

namespace PyEMD
namespace InitImage
open Init

section LawFree

variable {α : Type} [Add α] [Sub α] [Mul α] [Div α] [Neg α] [LT α] [LE α] [BEq α]
  [DecidableLT α] [DecidableLE α] [NpScalar α]

/-- The five attributes with the given values. -/
def five (a b c d e : Value α) : Kwargs α :=
  [("mse_thr", a), ("mean_thr", b), ("FIXE", c), ("FIXE_H", d), ("MAX_ITERATION", e)]

theorem get_cons_eq (kw : Kwargs α) (n : String) (v x : Value α) : get ((n, v) :: kw) n x = v := by
  simp [Init.get, List.lookup_cons]

theorem get_cons_ne {kw : Kwargs α} {n name : String} (v x : Value α) (h : n ≠ name) : get ((n, v) :: kw) name x = get kw name x :=
  get_cons_other h

theorem get_absent {kw : Kwargs α} {n : String} (h : n ∉ kw.map Prod.fst) (x : Value α) : get kw n x = x := by
  simp [Init.get, lookup_none h]

/-- The options one after another. -/
theorem fold_five : ∀ (config : Kwargs α), (config.map Prod.fst).Nodup → ∀ a b c d e : Value α,
    config.foldl (fun d p => if d.any (fun q => q.1 = p.1) then assign d p.1 p.2 else d) (five a b c d e) =
      five (get config "mse_thr" a) (get config "mean_thr" b) (get config "FIXE" c) (get config "FIXE_H" d) (get config "MAX_ITERATION" e) := by
  intro config
  induction config with
  | nil => intro _ a b c d e; rfl
  | cons p config ih =>
    obtain ⟨n, v⟩ := p
    intro hn a b c d e
    simp only [List.map_cons, List.nodup_cons] at hn
    obtain ⟨h1, h2⟩ := hn
    rw [List.foldl_cons]
    by_cases c1 : n = "mse_thr"
    · subst c1
      rw [show (if (five a b c d e).any (fun q => q.1 = "mse_thr") then assign (five a b c d e) "mse_thr" v else five a b c d e) =
        five v b c d e by simp [five, assign], ih h2, get_cons_eq, get_absent h1, get_cons_ne _ _ (by decide), get_cons_ne _ _ (by decide),
        get_cons_ne _ _ (by decide), get_cons_ne _ _ (by decide)]
    by_cases c2 : n = "mean_thr"
    · subst c2
      rw [show (if (five a b c d e).any (fun q => q.1 = "mean_thr") then assign (five a b c d e) "mean_thr" v else five a b c d e) =
        five a v c d e by simp [five, assign], ih h2, get_cons_eq, get_absent h1, get_cons_ne _ _ (by decide), get_cons_ne _ _ (by decide),
        get_cons_ne _ _ (by decide), get_cons_ne _ _ (by decide)]
    by_cases c3 : n = "FIXE"
    · subst c3
      rw [show (if (five a b c d e).any (fun q => q.1 = "FIXE") then assign (five a b c d e) "FIXE" v else five a b c d e) =
        five a b v d e by simp [five, assign], ih h2, get_cons_eq, get_absent h1, get_cons_ne _ _ (by decide), get_cons_ne _ _ (by decide),
        get_cons_ne _ _ (by decide), get_cons_ne _ _ (by decide)]
    by_cases c4 : n = "FIXE_H"
    · subst c4
      rw [show (if (five a b c d e).any (fun q => q.1 = "FIXE_H") then assign (five a b c d e) "FIXE_H" v else five a b c d e) =
        five a b c v e by simp [five, assign], ih h2, get_cons_eq, get_absent h1, get_cons_ne _ _ (by decide), get_cons_ne _ _ (by decide),
        get_cons_ne _ _ (by decide), get_cons_ne _ _ (by decide)]
    by_cases c5 : n = "MAX_ITERATION"
    · subst c5
      rw [show (if (five a b c d e).any (fun q => q.1 = "MAX_ITERATION") then assign (five a b c d e) "MAX_ITERATION" v else five a b c d e) =
        five a b c d v by simp [five, assign], ih h2, get_cons_eq, get_absent h1, get_cons_ne _ _ (by decide), get_cons_ne _ _ (by decide),
        get_cons_ne _ _ (by decide), get_cons_ne _ _ (by decide)]
    · have hany : (five a b c d e).any (fun q => q.1 = n) = false := by
        simp only [five, List.any_cons, List.any_nil, Bool.or_false, Bool.or_eq_false_iff, decide_eq_false_iff_not]
        exact ⟨fun h => c1 h.symm, fun h => c2 h.symm, fun h => c3 h.symm, fun h => c4 h.symm, fun h => c5 h.symm⟩
      rw [hany]
      simp only [Bool.false_eq_true, if_false]
      rw [ih h2, get_cons_ne _ _ c1, get_cons_ne _ _ c2, get_cons_ne _ _ c3, get_cons_ne _ _ c4, get_cons_ne _ _ c5]

/-- **C163** (attributes): whatever is given, the constructor makes an object with exactly the five attributes; each has the value given
for its name, unchanged, or its default.  Other names leave no trace. -/
theorem C163_attributes (config : Kwargs α) (hn : (config.map Prod.fst).Nodup) :
    new config = [("mse_thr", get config "mse_thr" (.num (lit (1 / 100)))), ("mean_thr", get config "mean_thr" (.num (lit (1 / 100)))),
      ("FIXE", get config "FIXE" (.int 0)), ("FIXE_H", get config "FIXE_H" (.int 0)), ("MAX_ITERATION", get config "MAX_ITERATION" (.int 1000))] :=
  fold_five config hn _ _ _ _ _

/-- The attributes read like the configuration `cfg` of the model. -/
structure Stands (d : Kwargs α) (cfg : Cfg2 α) : Prop where
  mse : ∃ v, d.lookup "mse_thr" = some v ∧ threshold v = .ok cfg.mseThr
  mean : ∃ v, d.lookup "mean_thr" = some v ∧ threshold v = .ok cfg.meanThr
  fixe : ∃ v, d.lookup "FIXE" = some v ∧ pyBool v = decide (cfg.FIXE ≠ 0) ∧ ∀ n, beyond n v = .ok (decide (cfg.FIXE + 1 ≤ n))
  fixeH : ∃ v, d.lookup "FIXE_H" = some v ∧ pyBool v = decide (cfg.FIXE_H ≠ 0) ∧ ∀ n, reached n v = .ok (decide (cfg.FIXE_H ≤ n))
  maxIter : ∃ v, d.lookup "MAX_ITERATION" = some v ∧ ∀ n, below n v = .ok (decide (n < cfg.MAX_ITERATION))

theorem check_eq {d : Kwargs α} {cfg : Cfg2 α} (h : Stands d cfg) (proto prev m : Img α) :
    check d proto prev m = .ok (EMD2D.checkProtoImf cfg proto prev m) := by
  obtain ⟨v1, l1, t1⟩ := h.mse
  obtain ⟨v2, l2, t2⟩ := h.mean
  unfold check EMD2D.checkProtoImf attr
  simp only [l1, l2, bind, Except.bind, t1, t2]
  split
  · rfl
  · split
    · rfl
    · split
      · rfl
      · split
        · next h => simp [pure, Except.pure, h]
        · next h => simp [pure, Except.pure, h]

theorem sift_eq (sbs : Surface α) {d : Kwargs α} {cfg : Cfg2 α} (h : Stands d cfg) :
    ∀ (k n nH : Nat) (imf m : Img α), ∀ fuel, k < fuel → n + k = cfg.MAX_ITERATION →
      sift sbs d fuel n nH imf m = EMD2D.sift sbs cfg k n nH imf m := by
  obtain ⟨v3, l3, b3, t3⟩ := h.fixe
  obtain ⟨v4, l4, b4, t4⟩ := h.fixeH
  obtain ⟨v5, l5, t5⟩ := h.maxIter
  intro k
  induction k with
  | zero =>
    intro n nH imf m fuel hf hk
    obtain ⟨fuel, rfl⟩ : ∃ f, fuel = f + 1 := ⟨fuel - 1, by omega⟩
    rw [sift, EMD2D.sift]
    simp only [attr, l5, bind, Except.bind, t5]
    rw [show decide (n < cfg.MAX_ITERATION) = false by simp; omega]
    rfl
  | succ k ih =>
    intro n nH imf m fuel hf hk
    obtain ⟨fuel, rfl⟩ : ∃ f, fuel = f + 1 := ⟨fuel - 1, by omega⟩
    have step : ∀ nH x y, sift sbs d fuel (n + 1) nH x y = EMD2D.sift sbs cfg k (n + 1) nH x y :=
      fun nH x y => ih (n + 1) nH x y fuel (by omega) (by omega)
    rw [sift, EMD2D.sift]
    simp only [attr, l5, bind, Except.bind, t5]
    rw [show decide (n < cfg.MAX_ITERATION) = true by simp; omega]
    simp only [if_true]
    cases EMD2D.findExtrema imf with
    | error e => rfl
    | ok e =>
      dsimp only
      split
      · cases EMD2D.extractMaxMinSpline sbs (imf.sub m) with
        | error e => rfl
        | ok env =>
          dsimp only
          simp only [l3, l4, b3, b4, t3, t4, check_eq h, step, decide_eq_true_eq]
          rfl
      · rfl

theorem loop_eq (sbs : Surface α) {d : Kwargs α} {cfg : Cfg2 α} (h : Stands d cfg) {k : Nat} (hk : cfg.MAX_ITERATION < k) (image image_s : Img α)
    (m : Int) : ∀ (fuel : Nat) (imfs : List (Img α)), loop sbs d k image image_s m fuel imfs = EMD2D.loop sbs cfg image image_s m fuel imfs := by
  intro fuel
  induction fuel with
  | zero => intro imfs; rfl
  | succ fuel ih =>
    intro imfs
    rw [loop, EMD2D.loop]
    dsimp only
    rw [sift_eq sbs h _ 0 0 _ _ k hk (by omega)]
    simp only [ih]

/-- An object whose attributes read like `cfg` decomposes like the model with `cfg`. -/
theorem emd_of_stands (sbs : Surface α) {d : Kwargs α} {cfg : Cfg2 α} (h : Stands d cfg) (fuel : Nat) {k : Nat} (hk : cfg.MAX_ITERATION < k)
    (image : Img α) (m : Int) : emd sbs fuel k d image m = EMD2D.emd sbs fuel cfg image m := by
  unfold emd EMD2D.emd
  simp only [loop_eq sbs h hk]

end LawFree

section Exact

variable {K : Type} [Field K] [LinearOrder K] [IsStrictOrderedRing K] [FloorRing K]

/-- The whole number that a value given for a count stands for: Booleans are zero and one, fractions are rounded up. -/
inductive Count : Value K → Nat → Prop
  | int (k : Nat) : Count (.int k) k
  | bool (b : Bool) : Count (.bool b) (if b then 1 else 0)
  | num (x : K) (k : Nat) (h1 : x ≤ k) (h2 : (k : K) < x + 1) : Count (.num x) k

/-- The number that a value given for a threshold stands for. -/
inductive Number : Value K → K → Prop
  | int (z : Int) : Number (.int z) z
  | bool (b : Bool) : Number (.bool b) (if b then 1 else 0)
  | num (x : K) : Number (.num x) x

theorem Number.threshold {v : Value K} {x : K} (h : Number v x) : threshold v = .ok x := by
  cases h with
  | int z => simp [InitImage.threshold, lit_eq]
  | bool b => cases b <;> simp [InitImage.threshold, lit_eq]
  | num x => rfl

theorem nat_lt_iff {x : K} {k n : Nat} (h1 : x ≤ k) (h2 : (k : K) < x + 1) : (n : K) < x ↔ n < k := by
  constructor
  · intro h
    exact_mod_cast h.trans_le h1
  · intro h
    have : (n : K) + 1 ≤ k := by exact_mod_cast h
    linarith

theorem Count.below {v : Value K} {k : Nat} (h : Count v k) (n : Nat) : below n v = .ok (decide (n < k)) := by
  cases h with
  | int k => simp [InitImage.below]
  | bool b => cases b <;> simp [InitImage.below]
  | num x k h1 h2 => simp [InitImage.below, lit_eq, nat_lt_iff h1 h2]

theorem Count.reached {v : Value K} {k : Nat} (h : Count v k) (n : Nat) : reached n v = .ok (decide (k ≤ n)) := by
  cases h with
  | int k => simp [InitImage.reached]
  | bool b => cases b <;> simp [InitImage.reached]
  | num x k h1 h2 =>
    have : x ≤ (n : K) ↔ k ≤ n := by rw [← not_lt, nat_lt_iff h1 h2, not_lt]
    simp [InitImage.reached, lit_eq, this]

theorem Count.beyond {v : Value K} {k : Nat} (h : Count v k) (n : Nat) : beyond n v = .ok (decide (k + 1 ≤ n)) := by
  cases h with
  | int k =>
    have : ((k : Int) + 1 ≤ n) ↔ k + 1 ≤ n := by omega
    simp [InitImage.beyond, this]
  | bool b => cases b <;> simp [InitImage.beyond]
  | num x k h1 h2 =>
    have : x + 1 ≤ (n : K) ↔ k + 1 ≤ n := by
      rw [← not_lt, show ((n : K) < x + 1) ↔ n < k + 1 from nat_lt_iff (by push_cast; linarith) (by push_cast; linarith), not_lt]
    simp [InitImage.beyond, lit_eq, this]

theorem Count.truth {v : Value K} {k : Nat} (h : Count v k) : (pyBool v = decide (k ≠ 0)) ∨ ∃ x, v = .num x ∧ x < 0 := by
  cases h with
  | int k => left; cases k <;> simp [pyBool]; omega
  | bool b => left; cases b <;> simp [pyBool]
  | num x k h1 h2 =>
    rcases lt_trichotomy x 0 with h | h | h
    · exact .inr ⟨x, rfl, h⟩
    · left
      subst h
      have : k = 0 := by
        have : (k : K) < 1 := by linarith
        have : k < 1 := by exact_mod_cast this
        omega
      simp [pyBool, this]
    · left
      have : k ≠ 0 := by
        rintro rfl
        simp at h1
        linarith
      simp [pyBool, this, h.ne']

/-- A count that is no negative number. -/
def Plain (v : Value K) : Prop := ∀ x, v = .num x → 0 ≤ x

/-- **C163** (use): `EMD2D(**config).emd(image)` is the decomposition with the numbers given, in any order and mixed with any other
names: Booleans count as zero and one, fractional counts are rounded up, what is not given has its default. -/
theorem C163_used (config : Kwargs K) (hn : (config.map Prod.fst).Nodup) (cfg : Cfg2 K)
    (h1 : Number (get config "mse_thr" (.num (1 / 100))) cfg.mseThr) (h2 : Number (get config "mean_thr" (.num (1 / 100))) cfg.meanThr)
    (h3 : Count (get config "FIXE" (.int 0)) cfg.FIXE) (p3 : Plain (get config "FIXE" (.int 0)))
    (h4 : Count (get config "FIXE_H" (.int 0)) cfg.FIXE_H) (p4 : Plain (get config "FIXE_H" (.int 0)))
    (h5 : Count (get config "MAX_ITERATION" (.int 1000)) cfg.MAX_ITERATION)
    (sbs : Surface K) (fuel k : Nat) (hk : cfg.MAX_ITERATION < k) (image : Img K) (m : Int) :
    emd sbs fuel k (new config) image m = EMD2D.emd sbs fuel cfg image m := by
  refine emd_of_stands sbs ?_ fuel hk image m
  have hl : (lit (1 / 100) : K) = 1 / 100 := by rw [lit_eq]; norm_num
  rw [C163_attributes config hn, hl]
  have t3 := h3.truth.resolve_right (fun ⟨x, hx, hlt⟩ => absurd (p3 x hx) (not_le.2 hlt))
  have t4 := h4.truth.resolve_right (fun ⟨x, hx, hlt⟩ => absurd (p4 x hx) (not_le.2 hlt))
  exact ⟨⟨_, rfl, h1.threshold⟩, ⟨_, rfl, h2.threshold⟩, ⟨_, rfl, t3, h3.beyond⟩, ⟨_, rfl, t4, h4.reached⟩, ⟨_, rfl, h5.below⟩⟩

/-- Values that are no numbers. -/
def NoNumber : Value K → Prop
  | .none => True
  | .str _ => True
  | .other => True
  | _ => False

/-- **C163** (wrong types, limit): the constructor takes a limit of iterations that is no number, and every decomposition raises
`TypeError`. -/
theorem C163_late_limit (config : Kwargs K) (hn : (config.map Prod.fst).Nodup) (hv : NoNumber (get config "MAX_ITERATION" (.int 1000)))
    (sbs : Surface K) (fuel k : Nat) (hf : 0 < fuel) (hk : 0 < k) (image : Img K) (x y : K) (hx : x ∈ image.data) (hy : y ∈ image.data) (hxy : x ≠ y)
    (m : Int) : emd sbs fuel k (new config) image m = .error .typeError := by
  have hne : image.data ≠ [] := List.ne_nil_of_mem hx
  have hE : image.data.isEmpty = false := by simpa using hne
  have hs : npMax image.data - npMin image.data ≠ 0 := by
    intro h
    obtain ⟨-, hmax⟩ := npMax_spec hne
    obtain ⟨-, hmin⟩ := npMin_spec hne
    have := hmax x hx; have := hmax y hy; have := hmin x hx; have := hmin y hy
    exact hxy (by linarith)
  have hb : below 0 (get config "MAX_ITERATION" (.int 1000)) = .error .typeError := by
    generalize get config "MAX_ITERATION" (.int 1000) = v at hv
    cases v <;> first | rfl | exact hv.elim
  obtain ⟨fuel, rfl⟩ : ∃ f, fuel = f + 1 := ⟨fuel - 1, by omega⟩
  obtain ⟨k, rfl⟩ : ∃ f, k = f + 1 := ⟨k - 1, by omega⟩
  unfold emd npMinE npMaxE
  rw [C163_attributes config hn]
  simp only [hE, Bool.false_eq_true, if_false, bind, Except.bind, lit_zero, beq_iff_eq, hs, loop, sift, attr]
  simp [List.lookup_cons, hb]

/-- **C163** (wrong types, `FIXE`): the constructor takes a text for `FIXE`; the decomposition raises `TypeError` as soon as an image has
enough extrema to be sifted. -/
theorem C163_late_fixe (config : Kwargs K) (hn : (config.map Prod.fst).Nodup) (s : String) (hs : s ≠ "") (hv : get config "FIXE" (.int 0) = .str s)
    (c : Nat) (hmax : get config "MAX_ITERATION" (.int 1000) = .int (c + 1)) (sbs : Surface K) (fuel k : Nat) (hf : 0 < fuel) (hk : 0 < k)
    (image : Img K) (hw : Img.Spec.WF image) (x y : K) (hx : x ∈ image.data) (hy : y ∈ image.data) (hxy : x ≠ y) (m : Int)
    {e env} (he : EMD2D.findExtrema (EMD2D.standardised image) = .ok e) (h1 : 4 < e.1.length) (h2 : 4 < e.2.length)
    (henv : EMD2D.extractMaxMinSpline sbs (EMD2D.standardised image) = .ok env) :
    emd sbs fuel k (new config) image m = .error .typeError := by
  have hne : image.data ≠ [] := List.ne_nil_of_mem hx
  have hE : image.data.isEmpty = false := by simpa using hne
  have hs0 : npMax image.data - npMin image.data ≠ 0 := by
    intro h
    obtain ⟨-, hmax⟩ := npMax_spec hne
    obtain ⟨-, hmin⟩ := npMin_spec hne
    have := hmax x hx; have := hmax y hy; have := hmin x hx; have := hmin y hy
    exact hxy (by linarith)
  obtain ⟨fuel, rfl⟩ : ∃ f, fuel = f + 1 := ⟨fuel - 1, by omega⟩
  obtain ⟨k, rfl⟩ : ∃ f, k = f + 1 := ⟨k - 1, by omega⟩
  have hi : HasShape image image.rows image.cols := ⟨hw, rfl, rfl⟩
  have hS : HasShape (EMD2D.standardised image) image.rows image.cols := hi.map _
  have hsub : (EMD2D.standardised image).sub (Img.sum image.rows image.cols []) = EMD2D.standardised image :=
    EMD2D.sub_zeros _ _ _ hS
  have hsub' : (EMD2D.standardised image).sub (Img.zeros image.rows image.cols) = EMD2D.standardised image :=
    EMD2D.sub_zeros _ _ _ hS
  have hstd : image.map (fun x => (x - npMin image.data) / (npMax image.data - npMin image.data)) = EMD2D.standardised image := rfl
  unfold emd npMinE npMaxE
  rw [C163_attributes config hn]
  have hbool : pyBool (.str s : Value K) = true := by simp [pyBool, hs]
  simp only [hE, Bool.false_eq_true, if_false, bind, Except.bind, lit_zero, beq_iff_eq, hs0, hstd, loop, hsub, sift, attr]
  have hpos : (0 : Int) < (c : Int) + 1 := by omega
  simp [List.lookup_cons, hmax, hv, below, hpos, he, h1, h2, hsub', henv, hbool, beyond]

end Exact

/-! Cases: a fractional limit, a Boolean count, an unknown name; late errors on the chess board. -/

/-- Options in an order of their own, with a name that `EMD2D` does not have. -/
def someOptions : Kwargs ℚ :=
  [("MAX_ITERATION", .num (5 / 2)), ("colour", .str "grey"), ("FIXE", .bool true), ("mse_thr", .int 2)]

example : new someOptions =
    five (.int 2) (.num (1 / 100)) (.bool true) (.int 0) (.num (5 / 2)) := by
  rw [C163_attributes _ (by decide)]
  decide +kernel

example (sbs : Surface ℚ) (fuel : Nat) (image : Img ℚ) (m : Int) : emd sbs fuel 4 (new someOptions) image m =
    EMD2D.emd sbs fuel { mseThr := 2, meanThr := 1 / 100, FIXE := 1, FIXE_H := 0, MAX_ITERATION := 3 } image m :=
  C163_used someOptions (by decide) { mseThr := 2, meanThr := 1 / 100, FIXE := 1, FIXE_H := 0, MAX_ITERATION := 3 }
    (show Number (.int 2) ((2 : Int) : ℚ) from .int 2) (show Number (.num (1 / 100)) _ from .num _) (show Count (.bool true) _ from .bool true)
    (by intro x h; exact absurd (show Value.bool true = .num x from h) (by simp)) (show Count (.int (0 : Nat)) 0 from .int 0)
    (by intro x h; exact absurd (show Value.int 0 = .num x from h) (by simp))
    (show Count (.num (5 / 2 : ℚ)) 3 from .num (5 / 2) 3 (by norm_num) (by norm_num)) sbs fuel 4 (by norm_num) image m

/-- `EMD2D(MAX_ITERATION="10")` decomposes nothing. -/
example (sbs : Surface ℚ) : emd sbs 1 1 (new [("MAX_ITERATION", .str "10")]) board (-1) = .error .typeError :=
  C163_late_limit [("MAX_ITERATION", .str "10")] (by decide) trivial sbs 1 1 (by decide) (by decide) _ 0 1 (by decide +kernel) (by decide +kernel)
    (by decide) _

/-- `EMD2D(FIXE="3")` decomposes a ramp, which is not sifted, and fails on the board. -/
example : okWith (fun imfs => imfs.length = 1) (emd flatSurface 1 1 (new [("FIXE", .str "3")]) (Img.ofFn 3 3 (fun r c => r + c)) (-1)) ∧
    emd flatSurface 1 1 (new [("FIXE", .str "3")]) board (-1) = .error .typeError := by
  refine ⟨by decide +kernel, ?_⟩
  have he : ∃ e, EMD2D.findExtrema (EMD2D.standardised board) = .ok e ∧ 4 < e.1.length ∧ 4 < e.2.length := by
    have : okWith (fun e => 4 < e.1.length ∧ 4 < e.2.length) (EMD2D.findExtrema (EMD2D.standardised board)) := by decide +kernel
    revert this
    cases EMD2D.findExtrema (EMD2D.standardised board) with
    | error e => intro h; exact absurd h (by simp [okWith])
    | ok e => intro h; exact ⟨e, rfl, by simpa [okWith] using h⟩
  obtain ⟨e, he, h1, h2⟩ := he
  have henv : ∃ env, EMD2D.extractMaxMinSpline flatSurface (EMD2D.standardised board) = .ok env := by
    have : okWith (fun _ => true) (EMD2D.extractMaxMinSpline flatSurface (EMD2D.standardised board)) := by decide +kernel
    revert this
    cases EMD2D.extractMaxMinSpline flatSurface (EMD2D.standardised board) with
    | error e => intro h; exact absurd h (by simp [okWith])
    | ok e => intro _; exact ⟨e, rfl⟩
  obtain ⟨env, henv⟩ := henv
  exact C163_late_fixe [("FIXE", .str "3")] (by decide) "3" (by decide) rfl 999 rfl flatSurface 1 1 (by decide) (by decide) _
    (HasShape.ofFn _ _ _).wf 0 1 (by decide +kernel) (by decide +kernel) (by decide) _ he h1 h2 henv

end InitImage
end PyEMD
