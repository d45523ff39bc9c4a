import Verif.Model.Matlab
import Verif.Lemmas.Jit
import Verif.Lemmas.ExtremaSimple

/-!
# Lemmas about `EMD_matlab`
-/

set_option linter.unusedSectionVars false

namespace PyEMD
namespace Matlab
open EMD (Extrema SplineKind)

section LawFree
variable {α : Type} [Add α] [Sub α] [Mul α] [Div α] [Neg α] [LT α] [LE α] [BEq α]
  [DecidableLT α] [DecidableLE α] [NpScalar α]

/-! ## Detection -/

theorem usedRuns_eq (n : Nat) (d : List α) : usedRuns n d = EMD.dropLastRun n (EMD.dropFirstRun (EMD.flatRuns d)) := by
  unfold usedRuns EMD.flatRuns
  simp only []
  generalize nonzero ((runDiff (d.map (fun x => x == lit 0))).map (fun x => x == 1)) = A
  generalize nonzero ((runDiff (d.map (fun x => x == lit 0))).map (fun x => x == -1)) = B
  have h1 : (if A.head? = some 1 then (if A.length > 1 then (A.tail, B.tail) else ([], [])) else (A, B)) = EMD.dropFirstRun (A, B) := by
    unfold EMD.dropFirstRun
    cases A with
    | nil => rfl
    | cons a A =>
      by_cases ha : a = 1
      · subst ha
        rw [if_pos (by simp)]
        rfl
      · rw [if_neg (by simpa using ha)]
        simp only []
        split
        · next h => exact absurd (List.cons.inj h).1 ha
        · rfl
  rw [h1]
  unfold EMD.dropLastRun
  generalize EMD.dropFirstRun (A, B) = df
  by_cases h : df.1.length > 0
  · by_cases h' : df.2.getLast? = some (n - 1)
    · have hand : df.1.length > 0 ∧ df.2.getLast? = some (n - 1) := ⟨h, h'⟩
      rw [if_pos h, if_pos h', if_pos hand]
    · rw [if_pos h, if_neg h', if_neg (fun hc => h' hc.2)]
  · rw [if_neg h, if_neg (fun hc => h hc.1)]

/-! ## Dictionaries -/

/-- The keys are `0, 1, ..., k - 1`, in this order. -/
def Keys {β : Type} (d : List (Nat × β)) (k : Nat) : Prop := d.map (·.1) = List.range k

theorem dictSet_append {β : Type} (d : List (Nat × β)) (k : Nat) (v : β) (h : ∀ p ∈ d, p.1 ≠ k) : dictSet d k v = d ++ [(k, v)] := by
  induction d with
  | nil => rfl
  | cons p d ih =>
    simp only [dictSet]
    rw [if_neg (h p (by simp)), ih (fun q hq => h q (by simp [hq]))]
    rfl

theorem Keys.set {β : Type} {d : List (Nat × β)} {k : Nat} (h : Keys d k) (v : β) : dictSet d k v = d ++ [(k, v)] := by
  apply dictSet_append
  intro p hp hk
  have : p.1 ∈ d.map (·.1) := List.mem_map_of_mem hp
  rw [h, List.mem_range] at this
  omega

theorem Keys.succ {β : Type} {d : List (Nat × β)} {k : Nat} (h : Keys d k) (v : β) : Keys (dictSet d k v) (k + 1) := by
  unfold Keys
  rw [h.set, List.map_append, h, List.range_succ]
  rfl

theorem Keys.length {β : Type} {d : List (Nat × β)} {k : Nat} (h : Keys d k) : d.length = k := by
  have := congrArg List.length h
  simpa using this

theorem Keys.lookup {β : Type} {d : List (Nat × β)} {k : Nat} (h : Keys d k) (i : Nat) : d.lookup i = (d.map (·.2))[i]? := by
  have key : ∀ (d : List (Nat × β)) (k o : Nat), d.map (·.1) = List.range' o k → ∀ i, o ≤ i → d.lookup i = (d.map (·.2))[i - o]? := by
    intro d
    induction d with
    | nil => intro k o _ i _; simp
    | cons p d ih =>
      intro k o h i hi
      cases k with
      | zero => simp at h
      | succ k =>
        rw [List.range'_succ, List.map_cons, List.cons.injEq] at h
        obtain ⟨h1, h2⟩ := h
        obtain ⟨a, b⟩ := p
        simp only at h1
        subst h1
        rw [List.lookup_cons]
        by_cases e : i = a
        · subst e
          simp
        · have : (i == a) = false := by simpa using e
          rw [this]
          simp only []
          rw [ih k (a + 1) h2 i (by omega)]
          have : i - a = (i - (a + 1)) + 1 := by omega
          rw [this]
          simp
  have := key d k 0 (by rw [h, List.range_eq_range']) i (by omega)
  simpa using this

theorem Keys.gets {β : Type} {d : List (Nat × β)} {k : Nat} (h : Keys d k) : dictGets d (List.range k) = .ok (d.map (·.2)) := by
  have key : ∀ (m o : Nat), o + m = k → dictGets d (List.range' o m) = .ok ((d.map (·.2)).drop o) := by
    intro m
    induction m with
    | zero =>
      intro o ho
      have := h.length
      simp [dictGets]
      omega
    | succ m ih =>
      intro o ho
      have hl := h.length
      rw [List.range'_succ, dictGets, h.lookup]
      have ho' : o < (d.map (·.2)).length := by simp; omega
      rw [List.getElem?_eq_getElem ho', ih (o + 1) (by omega)]
      simp only [bind, Except.bind, pure, Except.pure]
      rw [List.drop_eq_getElem_cons ho']
  have := key k 0 (by omega)
  rw [List.range_eq_range']
  simpa using this

/-! ## The inner loop -/

theorem siftLoop_inv {sp : SciPy α} {cfg : Cfg α} {T : List α} (P : Sift α → Prop) (Q : Sift α → SiftEnd → Prop)
    (hc : ∀ s s', P s → s.n < cfg.MAX_ITERATION → siftBody sp cfg T s = .ok (.cont s') → P s')
    (hb : ∀ s s' why, P s → s.n < cfg.MAX_ITERATION → siftBody sp cfg T s = .ok (.brk s' why) → Q s' why)
    (hl : ∀ s, P s → ¬ s.n < cfg.MAX_ITERATION → Q s .limit)
    {fuel : Nat} {s s' : Sift α} {why : SiftEnd} (hP : P s) (h : siftLoop sp cfg T fuel s = .ok (s', why)) : Q s' why := by
  induction fuel generalizing s with
  | zero => cases h
  | succ fuel ih =>
    unfold siftLoop at h
    split at h
    · next hn =>
      simp only [bind_eq_ok] at h
      obtain ⟨st, hst, h⟩ := h
      cases st with
      | brk s1 w =>
        rw [pure_eq_ok] at h
        cases h
        exact hb _ _ _ hP hn hst
      | cont s1 => exact ih (hc s s1 hP hn hst) h
    · next hn =>
      cases h
      exact hl _ hP hn

/-- What one pass through the body of the inner loop does. -/
inductive Body (sp : SciPy α) (cfg : Cfg α) (T : List α) (s : Sift α) : SiftStep α → Prop
  | trend (e z : Int) : countExt T s.imf = .ok (e, z) → e ≤ 2 → Body sp cfg T s (.brk { s with n := s.n + 1, extNo := e } .trend)
  | lost (e z : Int) (imf : List α) : countExt T s.imf = .ok (e, z) → 2 < e →
      bcast (fun a b => a - b) s.imf (s.mean.map (fun m => cfg.reduceScale * m)) = .ok imf →
      extractMaxMinSpline sp cfg T imf = .ok none → Body sp cfg T s (.brk { s with n := s.n + 1, extNo := e, imf } .lost)
  | go (e z : Int) (imf up lo sum : List α) (st : SiftStep α) : countExt T s.imf = .ok (e, z) → 2 < e →
      bcast (fun a b => a - b) s.imf (s.mean.map (fun m => cfg.reduceScale * m)) = .ok imf →
      extractMaxMinSpline sp cfg T imf = .ok (some (up, lo)) → bcast (fun a b => a + b) up lo = .ok sum →
      ((s.n + 1 > cfg.maxIteration ∧
          st = .brk { s with n := s.n + 1, extNo := e, imf, mean := sum.map (fun x => lit (1 / 2) * x) } .tooMany) ∨
        (s.n + 1 ≤ cfg.maxIteration ∧ cfg.FIXE ≠ 0 ∧ cfg.FIXE + 1 ≤ s.n + 1 ∧
          st = .brk { s with n := s.n + 1, extNo := e, imf, mean := sum.map (fun x => lit (1 / 2) * x) } .fixe) ∨
        (s.n + 1 ≤ cfg.maxIteration ∧ cfg.FIXE ≠ 0 ∧ s.n + 1 < cfg.FIXE + 1 ∧
          st = .cont { s with n := s.n + 1, extNo := e, imf, mean := sum.map (fun x => lit (1 / 2) * x) }) ∨
        (s.n + 1 ≤ cfg.maxIteration ∧ cfg.FIXE = 0 ∧ cfg.FIXE_H ≠ 0 ∧ ∃ e' z', countExt T imf = .ok (e', z') ∧
          ((s.n + 1 = 1 ∧ st = .cont { s with n := s.n + 1, extNo := e', imf, mean := sum.map (fun x => lit (1 / 2) * x) }) ∨
           (s.n + 1 ≠ 1 ∧ ∃ nh, nh = (if |e' - z'| > 1 then 0 else s.nh + 1) ∧
             ((cfg.FIXE_H ≤ nh ∧ st = .brk { n := s.n + 1, nh, extNo := e', imf, mean := sum.map (fun x => lit (1 / 2) * x) } .fixeH) ∨
              (nh < cfg.FIXE_H ∧ st = .cont { n := s.n + 1, nh, extNo := e', imf, mean := sum.map (fun x => lit (1 / 2) * x) }))))) ∨
        (s.n + 1 ≤ cfg.maxIteration ∧ cfg.FIXE = 0 ∧ cfg.FIXE_H = 0 ∧ ∃ e' z' f1, countExt T imf = .ok (e', z') ∧
          stopSifting cfg up lo (sum.map (fun x => lit (1 / 2) * x)) e' = .ok f1 ∧
          ((f1 = true ∧ |e' - z'| < 2 ∧
              st = .brk { s with n := s.n + 1, extNo := e', imf, mean := sum.map (fun x => lit (1 / 2) * x) } .converged) ∨
           (¬ (f1 = true ∧ |e' - z'| < 2) ∧
              st = .cont { s with n := s.n + 1, extNo := e', imf, mean := sum.map (fun x => lit (1 / 2) * x) })))) →
      Body sp cfg T s st

theorem siftBody_body {sp : SciPy α} {cfg : Cfg α} {T : List α} {s : Sift α} {st : SiftStep α}
    (h : siftBody sp cfg T s = .ok st) : Body sp cfg T s st := by
  unfold siftBody at h
  simp only [bind_eq_ok] at h
  obtain ⟨⟨e, z⟩, he, h⟩ := h
  simp only at h
  split at h
  case isFalse hle =>
    rw [pure_eq_ok] at h
    subst h
    exact .trend e z he (by omega)
  case isTrue hgt =>
  simp only [bind_eq_ok] at h
  obtain ⟨imf, himf, env, henv, h⟩ := h
  cases env with
  | none =>
    rw [pure_eq_ok] at h
    subst h
    exact .lost e z imf he hgt himf henv
  | some p =>
    obtain ⟨up, lo⟩ := p
    simp only [bind_eq_ok] at h
    obtain ⟨sum, hsum, h⟩ := h
    refine .go e z imf up lo sum st he hgt himf henv hsum ?_
    split at h
    · next h1 =>
      rw [pure_eq_ok] at h
      exact .inl ⟨h1, h.symm⟩
    · next h1 =>
      right
      split at h
      · next h2 =>
        split at h
        · next h3 =>
          rw [pure_eq_ok] at h
          exact .inl ⟨by omega, h2, h3, h.symm⟩
        · next h3 =>
          rw [pure_eq_ok] at h
          exact .inr (.inl ⟨by omega, h2, by omega, h.symm⟩)
      · next h2 =>
        right; right
        have h2' : cfg.FIXE = 0 := by simpa using h2
        split at h
        · next h3 =>
          left
          simp only [bind_eq_ok] at h
          obtain ⟨⟨e', z'⟩, he', h⟩ := h
          refine ⟨by omega, h2', h3, e', z', he', ?_⟩
          simp only at h
          split at h
          · next h4 =>
            rw [pure_eq_ok] at h
            exact .inl ⟨h4, h.symm⟩
          · next h4 =>
            right
            refine ⟨h4, _, rfl, ?_⟩
            generalize (if |e' - z'| > 1 then 0 else s.nh + 1) = nh at h ⊢
            split at h
            · next h5 =>
              rw [pure_eq_ok] at h
              exact .inl ⟨h5, h.symm⟩
            · next h5 =>
              rw [pure_eq_ok] at h
              exact .inr ⟨by omega, h.symm⟩
        · next h3 =>
          right
          simp only [bind_eq_ok] at h
          obtain ⟨⟨e', z'⟩, he', f1, hf1, h⟩ := h
          refine ⟨by omega, h2', by simpa using h3, e', z', f1, he', hf1, ?_⟩
          simp only at h
          split at h
          · next h5 =>
            rw [pure_eq_ok] at h
            rw [Bool.and_eq_true, decide_eq_true_iff] at h5
            exact .inl ⟨h5.1, h5.2, h.symm⟩
          · next h5 =>
            rw [pure_eq_ok] at h
            rw [Bool.and_eq_true, decide_eq_true_iff] at h5
            exact .inr ⟨h5, h.symm⟩

theorem countExt_spec {T x : List α} {e z : Int} (h : countExt T x = .ok (e, z)) :
    ∃ E, findExtrema T x = .ok E ∧ e = (E.maxPos.length : Int) + (E.minPos.length : Int) ∧ z = (E.indzer.length : Int) := by
  unfold countExt at h
  simp only [bind_eq_ok, pure_eq_ok] at h
  obtain ⟨E, hE, h⟩ := h
  obtain ⟨rfl, rfl⟩ := Prod.mk.inj h
  exact ⟨E, hE, by omega, rfl⟩

theorem extract_some {sp : SciPy α} {cfg : Cfg α} {T x up lo : List α} (h : extractMaxMinSpline sp cfg T x = .ok (some (up, lo)))
    {e z : Int} (hc : countExt T x = .ok (e, z)) : 2 < e := by
  obtain ⟨E, hE, rfl, -⟩ := countExt_spec hc
  unfold extractMaxMinSpline at h
  rw [hE] at h
  simp only [bind, Except.bind] at h
  split at h
  · cases h
  · omega

theorem extract_none {sp : SciPy α} {cfg : Cfg α} {T x : List α} (h : extractMaxMinSpline sp cfg T x = .ok none) :
    ∃ E, findExtrema T x = .ok E ∧ E.maxPos.length + E.minPos.length ≤ 2 := by
  unfold extractMaxMinSpline at h
  simp only [bind_eq_ok] at h
  obtain ⟨E, hE, h⟩ := h
  refine ⟨E, hE, ?_⟩
  split at h
  · omega
  · simp only [bind_eq_ok] at h
    obtain ⟨pp, -, m, -, m', -, h⟩ := h
    cases h

end LawFree

section Exact
variable {K : Type} [Field K] [LinearOrder K] [IsStrictOrderedRing K] [FloorRing K]
open EMD.Spec

/-! ## Detection -/

theorem runLoop_eq (d : List K) (R : List (Nat × Nat)) (h : ∀ p ∈ R, ∀ x, pyGet d ((p.1 : Int) - 1) = .ok x → x ≠ 0) :
    runLoop d R = Jit.runLoop d R := by
  induction R with
  | nil => rfl
  | cons p R ih =>
    obtain ⟨b, f⟩ := p
    unfold runLoop Jit.runLoop
    rw [ih (fun q hq => h q (by simp [hq]))]
    cases hb : pyGet d ((b : Int) - 1) with
    | error e => simp only [bind, Except.bind]
    | ok x =>
      have hx := h (b, f) (by simp) x hb
      simp only [bind, Except.bind]
      cases pyGet d (f : Int) with
      | error e => simp only []
      | ok y =>
        simp only []
        cases Jit.runLoop d R with
        | error e => simp only []
        | ok ii =>
          simp only [lit_zero]
          rw [Nat.add_comm f b]
          rcases lt_trichotomy x 0 with h1 | h1 | h1
          · have : ¬ 0 < x := not_lt.2 h1.le
            simp [h1, this]
          · exact absurd h1 hx
          · have : ¬ x < 0 := not_lt.2 h1.le
            simp [h1, this]

/-- The detector agrees with the reference unless the signal starts and ends flat. -/
theorem extremaIdx_eq (S : List K) (h : ∀ a b c e, S[0]? = some a → S[1]? = some b → S[S.length - 2]? = some c →
    S[S.length - 1]? = some e → a = b → c ≠ e) : extremaIdx S = EMD.extremaIdx S := by
  rw [← Jit.extremaIdx_eq (fun x (h : lit 0 < x) => not_lt.2 h.le) S]
  unfold extremaIdx Jit.extremaIdx
  obtain ⟨R, h1, h2⟩ := Jit.usedRuns_eq S.length (npDiff S)
  have h3 := EMD.usedRuns_eq S
  have hR : R = EMD.usedRuns S := by
    have : (R.map (·.1)).zip (R.map (·.2)) = ((EMD.usedRuns S).map (·.1)).zip ((EMD.usedRuns S).map (·.2)) := by
      rw [h2] at h3
      rw [(Prod.mk.inj h3).1, (Prod.mk.inj h3).2]
    rw [List.zip_map', List.zip_map'] at this
    simpa using this
  have hz : (R.map (·.1)).zip (R.map (·.2)) = R := by
    rw [List.zip_map']
    exact List.map_id R
  suffices hl : runLoop (npDiff S) R = Jit.runLoop (npDiff S) R by
    simp only [usedRuns_eq, h2, h1, hz, hl]
  apply runLoop_eq
  rintro ⟨s, e⟩ hp x hx
  rw [hR] at hp
  rw [EMD.pyGet_dBefore hp] at hx
  obtain rfl : EMD.dBefore S s = x := Except.ok.inj hx
  obtain ⟨g1, g2, g3, g4, -, -⟩ := EMD.mem_usedRuns.1 hp
  unfold EMD.dBefore
  split
  · next h0 =>
    subst h0
    have d0 := g3 0 (by omega) g1
    rw [EMD.dAt_eq (by omega)] at d0
    have := h _ _ _ _ (EMD.getElem?_sAt (by omega)) (EMD.getElem?_sAt (by omega)) (EMD.getElem?_sAt (by omega))
      (EMD.getElem?_sAt (by omega)) (sub_eq_zero.1 d0).symm
    rw [EMD.dAt_eq (by omega), show S.length - 2 + 1 = S.length - 1 by omega]
    exact fun hc => this (sub_eq_zero.1 hc).symm
  · next h0 => exact g4.resolve_left h0

/-! ## Sifting -/

/-- `m` is the mean of the envelopes of `x`. -/
def IsMean (sp : SciPy K) (cfg : Cfg K) (T x m : List K) : Prop :=
  ∃ up lo s, extractMaxMinSpline sp cfg T x = .ok (some (up, lo)) ∧ bcast (fun a b => a + b) up lo = .ok s ∧
    m = s.map (fun v => 1 / 2 * v)

/-- `y` comes from `x` by `k` siftings: each takes `reduceScale` times the mean envelope away. -/
inductive Sifted (sp : SciPy K) (cfg : Cfg K) (T x : List K) : Nat → List K → Prop
  | zero : Sifted sp cfg T x 0 x
  | succ (k : Nat) (y m z : List K) : Sifted sp cfg T x k y → IsMean sp cfg T y m →
      bcast (fun a b => a - b) y (m.map (fun v => cfg.reduceScale * v)) = .ok z → Sifted sp cfg T x (k + 1) z

theorem sub_zeros (c : K) (x z : List K) (n : Nat) (h : bcast (fun a b => a - b) x ((vzeros n).map (fun m => c * m)) = .ok z)
    (hn : n = x.length) : z = x := by
  subst hn
  have : ((vzeros x.length : List K).map (fun m => c * m)) = List.replicate x.length 0 := by simp [vzeros]
  rw [this] at h
  unfold bcast at h
  rw [if_pos (by simp)] at h
  rw [← Except.ok.inj h]
  apply List.ext_getElem
  · simp
  · intro i h1 h2
    simp

/-- The numbers of extrema and of zero crossings differ by at most one. -/
def ImfLike (T x : List K) : Prop :=
  ∃ E, findExtrema T x = .ok E ∧ |(E.maxPos.length : Int) + (E.minPos.length : Int) - (E.indzer.length : Int)| ≤ 1

/-- `y` comes from `x` by `j` siftings and after each of the last `c` of them the numbers of extrema and of zero crossings differed by at
most one. -/
inductive LastLike (sp : SciPy K) (cfg : Cfg K) (T x : List K) : Nat → Nat → List K → Prop
  | start (j : Nat) (y : List K) : Sifted sp cfg T x j y → LastLike sp cfg T x j 0 y
  | succ (j c : Nat) (y m z : List K) : LastLike sp cfg T x j c y → IsMean sp cfg T y m →
      bcast (fun a b => a - b) y (m.map (fun v => cfg.reduceScale * v)) = .ok z → ImfLike T z → LastLike sp cfg T x (j + 1) (c + 1) z

theorem LastLike.le {sp : SciPy K} {cfg : Cfg K} {T x : List K} {j c : Nat} {y : List K} (h : LastLike sp cfg T x j c y) : c ≤ j := by
  induction h with
  | start => omega
  | succ => omega

/-- State of the inner loop between two passes. -/
def SiftInv (sp : SciPy K) (cfg : Cfg K) (T x : List K) (s : Sift K) : Prop :=
  (s.n = 0 ∧ s.imf = x ∧ s.mean = vzeros x.length ∧ s.nh ≤ 0) ∨
    (1 ≤ s.n ∧ s.n ≤ cfg.maxIteration ∧ (1 ≤ cfg.FIXE → s.n ≤ cfg.FIXE) ∧ s.n ≤ cfg.MAX_ITERATION ∧
      Sifted sp cfg T x (s.n - 1).toNat s.imf ∧ IsMean sp cfg T s.imf s.mean ∧
      (cfg.FIXE_H ≠ 0 → cfg.FIXE = 0 → ∃ c : Nat, s.nh ≤ c ∧ LastLike sp cfg T x (s.n - 1).toNat c s.imf))

/-- What is known of the result of the inner loop. -/
structure SiftPost (sp : SciPy K) (cfg : Cfg K) (T x : List K) (s : Sift K) (why : SiftEnd) : Prop where
  trend : why = .trend → s.n = 1 ∧ s.imf = x ∧ ∃ E, findExtrema T x = .ok E ∧
    s.extNo = (E.maxPos.length : Int) + (E.minPos.length : Int) ∧ s.extNo ≤ 2
  other : why ≠ .trend → 1 ≤ cfg.MAX_ITERATION → 1 ≤ s.n ∧ s.n ≤ cfg.MAX_ITERATION ∧
    (0 ≤ cfg.maxIteration → s.n ≤ cfg.maxIteration + 1) ∧ Sifted sp cfg T x (s.n - 1).toNat s.imf
  mean : why ≠ .trend → why ≠ .lost → 1 ≤ cfg.MAX_ITERATION → IsMean sp cfg T s.imf s.mean
  none : cfg.MAX_ITERATION < 1 → why = .limit ∧ s.n = 0 ∧ s.imf = x
  lost : why = .lost → ∃ E, findExtrema T s.imf = .ok E ∧ E.maxPos.length + E.minPos.length ≤ 2
  limit : why = .limit → 1 ≤ cfg.MAX_ITERATION → s.n = cfg.MAX_ITERATION
  tooMany : why = .tooMany → 0 ≤ cfg.maxIteration → s.n = cfg.maxIteration + 1
  fixe : why = .fixe → cfg.FIXE ≠ 0 ∧ (1 ≤ cfg.FIXE → s.n = cfg.FIXE + 1)
  fixeH : why = .fixeH → cfg.FIXE = 0 ∧ cfg.FIXE_H ≠ 0 ∧ 2 ≤ s.n ∧
    ∃ c : Nat, cfg.FIXE_H ≤ c ∧ LastLike sp cfg T x (s.n - 1).toNat c s.imf
  converged : why = .converged → cfg.FIXE = 0 ∧ cfg.FIXE_H = 0 ∧ ∃ up lo sum E,
    extractMaxMinSpline sp cfg T s.imf = .ok (some (up, lo)) ∧ bcast (fun a b => a + b) up lo = .ok sum ∧
    findExtrema T s.imf = .ok E ∧ s.extNo = (E.maxPos.length : Int) + (E.minPos.length : Int) ∧
    |s.extNo - (E.indzer.length : Int)| < 2 ∧
    stopSifting cfg up lo (sum.map (fun v => 1 / 2 * v)) s.extNo = .ok true
  fixeBound : 1 ≤ cfg.FIXE → s.n ≤ cfg.FIXE + 1
  lostN : why = .lost → 2 ≤ s.n

theorem half_map (l : List K) : l.map (fun v => lit (1 / 2) * v) = l.map (fun v => 1 / 2 * v) := by
  apply List.map_congr_left
  intro v _
  rw [lit_eq]
  norm_num

theorem SiftInv.next {sp : SciPy K} {cfg : Cfg K} {T x imf : List K} {s : Sift K} (h : SiftInv sp cfg T x s)
    (hb : bcast (fun a b => a - b) s.imf (s.mean.map (fun m => cfg.reduceScale * m)) = .ok imf) :
    0 ≤ s.n ∧ Sifted sp cfg T x (s.n + 1 - 1).toNat imf := by
  rcases h with ⟨h0, h1, h2, -⟩ | ⟨h0, -, -, -, h1, h2, -⟩
  · rw [h1, h2] at hb
    rw [sub_zeros _ _ _ _ hb rfl, h0]
    exact ⟨le_refl _, .zero⟩
  · refine ⟨by omega, ?_⟩
    have := Sifted.succ _ _ _ _ h1 h2 hb
    have e : (s.n + 1 - 1).toNat = (s.n - 1).toNat + 1 := by omega
    rw [e]
    exact this

theorem SiftInv.noTrend {sp : SciPy K} {cfg : Cfg K} {T x : List K} {s : Sift K} (h : SiftInv sp cfg T x s) {e z : Int}
    (hc : countExt T s.imf = .ok (e, z)) (he : e ≤ 2) : s.n = 0 ∧ s.imf = x := by
  rcases h with ⟨h0, h1, h2, -⟩ | ⟨h0, -, -, -, h1, ⟨up, lo, sm, h2, -⟩, -⟩
  · exact ⟨h0, h1⟩
  · have := extract_some h2 hc
    omega

/-- The counter of passes whose proto-IMF was like an IMF. -/
theorem SiftInv.count {sp : SciPy K} {cfg : Cfg K} {T x imf : List K} {s : Sift K} (h : SiftInv sp cfg T x s)
    (hb : bcast (fun a b => a - b) s.imf (s.mean.map (fun m => cfg.reduceScale * m)) = .ok imf) {e z nh : Int}
    (hc : countExt T imf = .ok (e, z)) (hF : cfg.FIXE = 0) (hH : cfg.FIXE_H ≠ 0) (hn : s.n + 1 ≠ 1)
    (hnh : nh = (if |e - z| > 1 then 0 else s.nh + 1)) : ∃ c : Nat, nh ≤ c ∧ LastLike sp cfg T x (s.n + 1 - 1).toNat c imf := by
  have hS := h.next hb
  by_cases hl : |e - z| > 1
  · rw [if_pos hl] at hnh
    exact ⟨0, by omega, .start _ _ hS.2⟩
  · rw [if_neg hl] at hnh
    rcases h with ⟨h0, -⟩ | ⟨h0, -, -, -, -, h2, h3⟩
    · omega
    · obtain ⟨c, h4, h5⟩ := h3 hH hF
      obtain ⟨E, hE, he, hz⟩ := countExt_spec hc
      refine ⟨c + 1, by omega, ?_⟩
      have e1 : (s.n + 1 - 1).toNat = (s.n - 1).toNat + 1 := by omega
      rw [e1]
      exact .succ _ _ _ _ _ h5 h2 hb ⟨E, hE, by rw [← he, ← hz]; omega⟩

theorem siftLoop_post {sp : SciPy K} {cfg : Cfg K} {T x : List K} {fuel : Nat} {s : Sift K} {why : SiftEnd} {e0 : Int}
    (h : siftLoop sp cfg T fuel { n := 0, nh := 0, extNo := e0, imf := x, mean := vzeros x.length } = .ok (s, why)) :
    SiftPost sp cfg T x s why := by
  refine siftLoop_inv (SiftInv sp cfg T x) (SiftPost sp cfg T x) ?_ ?_ ?_ (.inl ⟨rfl, rfl, rfl, le_refl _⟩) h
  · intro s s' hP hn hb
    cases siftBody_body hb with
    | go e z imf up lo sum st hc he himf henv hsum hst =>
      obtain ⟨h0, hS⟩ := hP.next himf
      have hM : IsMean sp cfg T imf (sum.map (fun x => lit (1 / 2) * x)) := ⟨up, lo, sum, henv, hsum, half_map sum⟩
      rcases hst with ⟨-, h2⟩ | ⟨-, -, -, h2⟩ | ⟨h1, h3, h4, h2⟩ | ⟨h1, h3, h4, e', z', hc', h5⟩ | ⟨h1, h3, h4, e', z', f1, hc', hs', h5⟩
      · cases h2
      · cases h2
      · cases h2
        exact .inr ⟨by simp; omega, h1, fun _ => by simp; omega, by simp; omega, hS, hM, fun _ g => absurd g h3⟩
      · rcases h5 with ⟨h6, h2⟩ | ⟨h6, nh, hnh, h5⟩
        · cases h2
          have hnh : s.nh ≤ 0 := by
            rcases hP with g | g
            · exact g.2.2.2
            · omega
          exact .inr ⟨by simp; omega, h1, fun _ => by omega, by simp; omega, hS, hM, fun _ _ => ⟨0, by simpa using hnh, .start _ _ hS⟩⟩
        · rcases h5 with ⟨-, h2⟩ | ⟨-, h2⟩
          · cases h2
          · cases h2
            exact .inr ⟨by simp; omega, h1, fun _ => by omega, by simp; omega, hS, hM, fun _ _ => hP.count himf hc' h3 h4 h6 hnh⟩
      · rcases h5 with ⟨-, -, h2⟩ | ⟨-, h2⟩
        · cases h2
        · cases h2
          exact .inr ⟨by simp; omega, h1, fun _ => by omega, by simp; omega, hS, hM, fun g => absurd h4 g⟩
  · intro s s' why hP hn hb
    have hr : s.n = 0 ∨ (1 ≤ s.n ∧ s.n ≤ cfg.maxIteration ∧ (1 ≤ cfg.FIXE → s.n ≤ cfg.FIXE)) := by
      rcases hP with h | h
      · exact .inl h.1
      · exact .inr ⟨h.1, h.2.1, h.2.2.1⟩
    cases siftBody_body hb with
    | trend e z hc he =>
      obtain ⟨h0, h1⟩ := hP.noTrend hc he
      obtain ⟨E, hE, rfl, -⟩ := countExt_spec hc
      rw [h1] at hE
      have key : SiftPost sp cfg T x { s with n := s.n + 1, extNo := (E.maxPos.length : Int) + (E.minPos.length : Int) } .trend := by
        constructor
        case trend => exact fun _ => ⟨by simp [h0], h1, E, hE, rfl, he⟩
        case fixeBound => intro; simp only; omega
        case none => intro; omega
        all_goals (intro hh; first | exact absurd rfl hh | exact absurd hh (by decide))
      exact key
    | lost e z imf hc he himf henv =>
      obtain ⟨h0, hS⟩ := hP.next himf
      constructor
      case other => exact fun _ _ => ⟨by simp only; omega, by simp only; omega, by simp only; omega, hS⟩
      case lost => exact fun _ => extract_none henv
      case lostN =>
        intro _
        rcases hP with ⟨g0, g1, g2, -⟩ | ⟨g0, -⟩
        · exfalso
          rw [g1, g2] at himf
          rw [sub_zeros _ _ _ _ himf rfl] at henv
          obtain ⟨E, hE, h3⟩ := extract_none henv
          obtain ⟨E', hE', rfl, -⟩ := countExt_spec hc
          rw [g1, hE] at hE'
          cases hE'
          omega
        · simp only; omega
      case fixeBound => intro; simp only; omega
      case none => intro; omega
      case mean => exact fun _ hh => absurd rfl hh
      all_goals (intro hh; exact absurd hh (by decide))
    | go e z imf up lo sum st hc he himf henv hsum hst =>
      obtain ⟨h0, hS⟩ := hP.next himf
      have hM : IsMean sp cfg T imf (sum.map (fun x => lit (1 / 2) * x)) := ⟨up, lo, sum, henv, hsum, half_map sum⟩
      rcases hst with ⟨h1, h2⟩ | ⟨h1, h3, h4, h2⟩ | ⟨h1, h3, h4, h2⟩ | ⟨h1, h3, h4, e', z', hc', h5⟩ | ⟨h1, h3, h4, e', z', f1, hc', hs', h5⟩
      · cases h2
        constructor
        case other => exact fun _ _ => ⟨by simp only; omega, by simp only; omega, by simp only; omega, hS⟩
        case mean => exact fun _ _ _ => hM
        case tooMany => intro _ _; simp only; omega
        case fixeBound => intro; simp only; omega
        case none => intro; omega
        all_goals (intro hh; exact absurd hh (by decide))
      · cases h2
        constructor
        case other => exact fun _ _ => ⟨by simp only; omega, by simp only; omega, by simp only; omega, hS⟩
        case mean => exact fun _ _ _ => hM
        case fixe => exact fun _ => ⟨h3, by simp only; omega⟩
        case fixeBound => intro; simp only; omega
        case none => intro; omega
        all_goals (intro hh; exact absurd hh (by decide))
      · cases h2
      · rcases h5 with ⟨h6, h2⟩ | ⟨h6, nh, hnh, h5⟩
        · cases h2
        · rcases h5 with ⟨hge, h2⟩ | ⟨-, h2⟩
          · cases h2
            constructor
            case other => exact fun _ _ => ⟨by simp only; omega, by simp only; omega, by simp only; omega, hS⟩
            case mean => exact fun _ _ _ => hM
            case fixeH =>
              intro _
              obtain ⟨c, g1, g2⟩ := hP.count himf hc' h3 h4 h6 hnh
              exact ⟨h3, h4, by simp only; omega, c, by omega, g2⟩
            case fixeBound => intro; omega
            case none => intro; omega
            all_goals (intro hh; exact absurd hh (by decide))
          · cases h2
      · rcases h5 with ⟨hf, hd, h2⟩ | ⟨-, h2⟩
        · cases h2
          obtain ⟨E, hE, he', hz⟩ := countExt_spec hc'
          constructor
          case other => exact fun _ _ => ⟨by simp only; omega, by simp only; omega, by simp only; omega, hS⟩
          case mean => exact fun _ _ _ => hM
          case converged =>
            intro _
            refine ⟨h3, h4, up, lo, sum, E, henv, hsum, hE, he', ?_, ?_⟩
            · rw [← hz]; exact hd
            · rw [← half_map, hs', hf]
          case fixeBound => intro; omega
          case none => intro; omega
          all_goals (intro hh; exact absurd hh (by decide))
        · cases h2
  · intro s hP hn
    rcases hP with ⟨h0, h1, h2, -⟩ | ⟨h0, h1, h2, h3, h4, h5, -⟩
    · constructor
      case other => intro; omega
      case mean => intro; omega
      case none => exact fun _ => ⟨rfl, h0, h1⟩
      case limit => intro; omega
      case fixeBound => intro; omega
      all_goals (intro hh; exact absurd hh (by decide))
    · constructor
      case other => exact fun _ _ => ⟨h0, h3, by omega, h4⟩
      case mean => exact fun _ _ _ => h5
      case none => intro; omega
      case limit => intro; omega
      case fixeBound => intro; omega
      all_goals (intro hh; exact absurd hh (by decide))

/-! ## The outer loop -/

/-- One round: what it started from, how the inner loop ended. -/
structure Rec (K : Type) where
  x : List K
  s : Sift K
  why : SiftEnd

/-- The rounds so far. -/
structure RecsOk (sp : SciPy K) (cfg : Cfg K) (T S : List K) (recs : List (Rec K)) : Prop where
  start : ∀ i r, recs[i]? = some r → IsResidue S ((recs.take i).map (·.s.imf)) r.x
  post : ∀ r ∈ recs, SiftPost sp cfg T r.x r.s r.why

structure StateOk (sp : SciPy K) (cfg : Cfg K) (T S : List K) (recs : List (Rec K)) (st : State K) : Prop where
  recsOk : RecsOk sp cfg T S recs
  keys : Keys st.IMF st.imfNo
  keysE : Keys st.EXT st.imfNo
  keysI : Keys st.ITER st.imfNo
  imfNo : st.imfNo = recs.length
  rows : st.IMF.map (·.2) = recs.map (·.s.imf)
  exts : st.EXT.map (·.2) = recs.map (·.s.extNo)
  iters : st.ITER.map (·.2) = recs.map (·.s.n)
  ends : st.ends = recs.map (·.why)
  res : st.imf.length = st.Res.length → IsResidue S (recs.map (·.s.imf)) (vsub st.Res st.imf)
  ext : ∀ r, recs.getLast? = some r → st.extNo = r.s.extNo

theorem colSum_concat (B : List (List K)) (b : List K) (i : Nat) : colSum (B ++ [b]) i = colSum B i + b.getD i 0 := by
  rw [colSum_eq, colSum_eq]
  simp

theorem residue_step {S x y : List K} {rows : List (List K)} (h : IsResidue S rows x) (hl : y.length = x.length) :
    IsResidue S (rows ++ [y]) (vsub x y) := by
  obtain ⟨h1, h2⟩ := h
  refine ⟨by simp [vsub, hl, h1], ?_⟩
  intro i hi
  obtain ⟨s, hs, hx⟩ := h2 i hi
  have hy : i < y.length := by omega
  refine ⟨s, hs, ?_⟩
  rw [vsub_getElem? _ _ _ _ _ hx (List.getElem?_eq_getElem hy), colSum_concat]
  rw [List.getD_eq_getElem?_getD, List.getElem?_eq_getElem hy]
  simp only [Option.getD_some, Option.some.injEq]
  ring

theorem emdRound_ok {sp : SciPy K} {cfg : Cfg K} {T S : List K} {mi : Int} {recs : List (Rec K)} {st st' : State K} {fin : Bool}
    (hI : StateOk sp cfg T S recs st) (h : emdRound sp cfg T S.length mi st = .ok (st', fin)) :
    ∃ r, StateOk sp cfg T S (recs ++ [r]) st' ∧ (fin = true ↔ r.why = .trend ∨ ((recs.length : Int) + 1 = mi - 1)) := by
  unfold emdRound at h
  split at h
  · cases h
  · next hl =>
    have hl' : st.imf.length = st.Res.length := by simpa using hl
    have hres := hI.res hl'
    simp only [bind_eq_ok, pure_eq_ok] at h
    obtain ⟨⟨s, why⟩, hs, h⟩ := h
    obtain ⟨rfl, rfl⟩ := Prod.mk.inj h
    generalize hx : vsub st.Res st.imf = x at *
    have hxl : x.length = S.length := hres.1
    rw [← hxl] at hs
    have hpost := siftLoop_post hs
    refine ⟨⟨x, s, why⟩, ⟨⟨?_, ?_⟩, hI.keys.succ _, hI.keysE.succ _, hI.keysI.succ _, ?_, ?_, ?_, ?_, ?_, ?_, ?_⟩, ?_⟩
    · intro i r hr
      rcases lt_trichotomy i recs.length with hi | hi | hi
      · rw [List.getElem?_append_left hi] at hr
        rw [List.take_append_of_le_length hi.le]
        exact hI.recsOk.start i r hr
      · subst hi
        simp only [List.getElem?_concat_length, Option.some.injEq] at hr
        subst hr
        simpa using hres
      · rw [List.getElem?_eq_none (by simp; omega)] at hr
        cases hr
    · intro r hr
      rcases List.mem_append.1 hr with h | h
      · exact hI.recsOk.post r h
      · rw [List.mem_singleton.1 h]
        exact hpost
    · simp [hI.imfNo]
    · simp [hI.keys.set, hI.rows]
    · simp [hI.keysE.set, hI.exts]
    · simp [hI.keysI.set, hI.iters]
    · simp [hI.ends]
    · intro hl2
      rw [List.map_append]
      exact residue_step hres hl2
    · intro r hr
      simp only [List.getLast?_concat, Option.some.injEq] at hr
      subst hr
      rfl
    · rw [Bool.or_eq_true, decide_eq_true_iff, beq_iff_eq, hI.imfNo]
      push_cast
      rfl

/-- A round that is not the last one. -/
def Goes (mi : Int) (recs : List (Rec K)) : Prop :=
  ∀ (i : Nat) (r : Rec K), recs[i]? = some r → r.why ≠ .trend ∧ (i : Int) + 1 ≠ mi - 1

theorem emdLoop_ok {sp : SciPy K} {cfg : Cfg K} {T S : List K} {mi : Int} {fuel : Nat} {recs : List (Rec K)} {st st' : State K}
    (hI : StateOk sp cfg T S recs st) (hg : Goes mi recs) (h : emdLoop sp cfg T S.length mi fuel st = .ok st') :
    ∃ recs' r, StateOk sp cfg T S (recs' ++ [r]) st' ∧ Goes mi recs' ∧ (r.why = .trend ∨ (recs'.length : Int) + 1 = mi - 1) := by
  induction fuel generalizing recs st with
  | zero => cases h
  | succ fuel ih =>
    unfold emdLoop at h
    simp only [bind_eq_ok] at h
    obtain ⟨⟨st1, fin⟩, h1, h⟩ := h
    obtain ⟨r, hI', hf⟩ := emdRound_ok hI h1
    simp only at h
    split at h
    · next hfin =>
      rw [pure_eq_ok] at h
      subst h
      exact ⟨recs, r, hI', hg, hf.1 hfin⟩
    · next hfin =>
      refine ih hI' ?_ h
      have hnot := fun hc => hfin (hf.2 hc)
      intro i r' hr
      rcases lt_trichotomy i recs.length with hi | hi | hi
      · rw [List.getElem?_append_left hi] at hr
        exact hg i r' hr
      · subst hi
        simp only [List.getElem?_concat_length, Option.some.injEq] at hr
        subst hr
        exact ⟨fun hc => hnot (.inl hc), fun hc => hnot (.inr hc)⟩
      · rw [List.getElem?_eq_none (by simp; omega)] at hr
        cases hr

/-- The time array used. -/
def timeOf (S : List K) (T : Option (List K)) : List K := T.getD ((List.range S.length).map (fun k : Nat => lit (k : ℚ)))

/-- What `emd` returns. -/
structure EmdOk (sp : SciPy K) (cfg : Cfg K) (T S : List K) (mi : Int) (R : Result K) (recs : List (Rec K)) (r : Rec K) (res : List K)
    (more : Bool) : Prop where
  recsOk : RecsOk sp cfg T S (recs ++ [r])
  goes : Goes mi recs
  last : r.why = .trend ∨ (recs.length : Int) + 1 = mi - 1
  imfNo : R.imfNo = recs.length + 1 + (if more then 1 else 0)
  keys : Keys R.IMF R.imfNo
  keysE : Keys R.EXT R.imfNo
  keysI : Keys R.ITER R.imfNo
  rows : R.IMF.map (·.2) = (recs ++ [r]).map (·.s.imf) ++ (if more then [res] else [])
  exts : R.EXT.map (·.2) = (recs ++ [r]).map (·.s.extNo) ++ (if more then [r.s.extNo] else [])
  iters : R.ITER.map (·.2) = (recs ++ [r]).map (·.s.n) ++ (if more then [0] else [])
  ends : R.ends = (recs ++ [r]).map (·.why)
  len : ∀ q ∈ recs ++ [r], q.s.imf.length = S.length
  isRes : IsResidue S ((recs ++ [r]).map (·.s.imf)) res
  isMore : more = true ↔ 1 / 10000000000 < (res.map (fun v => |v|)).sum

theorem emd_ok {sp : SciPy K} {cfg : Cfg K} {S : List K} {T : Option (List K)} {mi : Int} {fuel : Nat} {R : Result K}
    (h : emd fuel sp cfg S T mi = .ok R) : ∃ recs r res more, EmdOk sp cfg (timeOf S T) S mi R recs r res more := by
  unfold emd at h
  simp only [lit_one, div_one, List.map_id'] at h
  change (if S.length ≠ (timeOf S T).length then _ else _) = _ at h
  split at h
  · cases h
  · simp only [bind_eq_ok] at h
    obtain ⟨st, hst, h⟩ := h
    have hinit : StateOk sp cfg (timeOf S T) S []
        { Res := S, imf := vzeros S.length, IMF := [], EXT := [], ITER := [], imfNo := 0, extNo := 0, ends := [] } := by
      refine ⟨⟨by simp, by simp⟩, rfl, rfl, rfl, rfl, rfl, rfl, rfl, rfl, ?_, by simp⟩
      intro _
      refine ⟨by simp [vsub, vzeros], ?_⟩
      intro i hi
      refine ⟨S[i], List.getElem?_eq_getElem hi, ?_⟩
      rw [vsub_getElem? _ _ _ _ 0 (List.getElem?_eq_getElem hi) (by simp [vzeros, hi])]
      simp [colSum_eq]
    obtain ⟨recs, r, hI, hg, hlast⟩ := emdLoop_ok hinit (by intro i r hr; simp at hr) hst
    unfold finish at h
    rw [hI.keys.gets] at h
    simp only [bind, Except.bind, lit_one, mul_one, List.map_id', Prod.mk.eta] at h
    split at h
    case isFalse => cases h
    case isTrue hlen =>
    rw [hI.rows] at h hlen
    rw [pure_eq_ok] at h
    have hlen' : ∀ q ∈ recs ++ [r], q.s.imf.length = S.length := by
      intro q hq
      rw [List.all_eq_true] at hlen
      simpa using hlen q.s.imf (List.mem_map_of_mem hq)
    have hres := EMD.isResidue_vsub S ((recs ++ [r]).map (·.s.imf)) (by
      intro y hy
      obtain ⟨q, hq, rfl⟩ := List.mem_map.1 hy
      exact hlen' q hq)
    generalize vsub S (sumRows S.length ((recs ++ [r]).map (·.s.imf))) = res at h hres
    generalize hm : decide (lit (1 / 10000000000) < npSum (res.map pyAbs)) = more at h
    have habs : res.map pyAbs = res.map (fun v => |v|) := List.map_congr_left (fun v _ => pyAbs_eq v)
    have hno : st.imfNo = recs.length + 1 := by rw [hI.imfNo]; simp
    have hext := hI.ext r (by simp)
    subst h
    refine ⟨recs, r, res, more, hI.recsOk, hg, hlast, ?_, ?_, ?_, ?_, ?_, ?_, ?_, hI.ends, hlen', hres, ?_⟩
    · cases more <;> simp [hno]
    · cases more
      · exact hI.keys
      · exact hI.keys.succ _
    · cases more
      · exact hI.keysE
      · exact hI.keysE.succ _
    · cases more
      · exact hI.keysI
      · exact hI.keysI.succ _
    · cases more
      · simp [hI.rows]
      · simp [hI.keys.set, hI.rows]
    · cases more
      · simp [hI.exts]
      · simp [hI.keysE.set, hI.exts, hext]
    · cases more
      · simp [hI.iters]
      · simp [hI.keysI.set, hI.iters]
    · rw [← hm, decide_eq_true_iff, npSum_eq, habs, lit_eq]
      push_cast
      rfl

end Exact
end Matlab
end PyEMD
