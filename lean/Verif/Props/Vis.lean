import Verif.Model.Vis
import Verif.Props.Compact
import Verif.Lemmas.Ceemdan

/-!
# C58, C59, C69: visualisation
-/

set_option linter.unusedSectionVars false

namespace PyEMD
namespace Vis

section LawFree

variable {α : Type} [Add α] [Sub α] [Mul α] [Div α] [Neg α] [LT α] [LE α] [BEq α]
  [DecidableLT α] [DecidableLE α] [NpScalar α]

/-- The first of the two that exists. -/
def firstOf {β : Type} (a b : Option β) : Option β := if a.isSome then a else b

/-- **C59.**  Arguments take precedence over what the object holds; `AttributeError` exactly when there are no components, or no
residue although it was requested. -/
theorem C59_check_imfs (o : Obj α) (imfs : Option (List (List α))) (residue : Option (List α)) (include_residue : Bool) :
    (∀ i, firstOf imfs o.imfs = some i → (include_residue = true → firstOf residue o.residue ≠ none) →
      o.checkImfs imfs residue include_residue = .ok (i, firstOf residue o.residue)) ∧
    (firstOf imfs o.imfs = none ∨ include_residue = true ∧ firstOf residue o.residue = none →
      o.checkImfs imfs residue include_residue = .error .attributeError) := by
  obtain ⟨oi, or⟩ := o
  constructor
  · intro i hi hr
    cases imfs <;> cases residue <;> cases oi <;> cases or <;> cases include_residue <;>
      simp_all [firstOf, Obj.checkImfs]
  · intro h
    cases imfs <;> cases residue <;> cases oi <;> cases or <;> cases include_residue <;>
      simp_all [firstOf, Obj.checkImfs]

/-- **C59.**  What the object holds are the components and the residue of the EMD object it was made from; an EMD object that has not
run yet raises. -/
theorem C59_new (e : EMD.Obj α) :
    (∀ i r, e.imfs = some i → e.residue = some r → Obj.new (some e) = .ok { imfs := some i, residue := some r }) ∧
    (e.imfs = none ∨ e.residue = none → Obj.new (some e) = .error .valueError) ∧
    Obj.new (none : Option (EMD.Obj α)) = .ok { imfs := none, residue := none } := by
  refine ⟨?_, ?_, rfl⟩
  · intro i r hi hr
    simp only [Obj.new, EMD.Obj.getImfsAndResidue, hi, hr]
    rfl
  · rintro (h | h)
    · simp only [Obj.new, EMD.Obj.getImfsAndResidue, h]
      rfl
    · simp only [Obj.new, EMD.Obj.getImfsAndResidue, h]
      cases e.imfs <;> rfl

theorem draw_ok {axs : List (Axis α)} {k tlen : Nat} {y : List α} {label : String} {ax : Axis α} (hk : axs[k]? = some ax)
    (hy : y.length = tlen) : draw axs k tlen y label = .ok (axs.set k { label, curves := ax.curves ++ [y] }) := by
  simp [draw, hk, hy]

/-- Drawing rows on fresh axes. -/
theorem drawAll_fresh (tlen : Nat) (label : Nat → String) : ∀ (rows : List (List α)) (num extra : Nat) (pre : List (Axis α)),
    pre.length = num → (∀ r ∈ rows, r.length = tlen) →
    drawAll tlen label num rows (pre ++ List.replicate (rows.length + extra) { label := "", curves := [] }) =
      .ok (pre ++ rows.mapIdx (fun i r => { label := label (num + i), curves := [r] }) ++
        List.replicate extra { label := "", curves := [] })
  | [], num, extra, pre, _, _ => by simp [drawAll]
  | r :: rows, num, extra, pre, hp, hl => by
    have hk : (pre ++ List.replicate ((r :: rows).length + extra) ({ label := "", curves := [] } : Axis α))[num]? =
        some { label := "", curves := [] } := by
      rw [List.getElem?_append_right (by omega), hp, Nat.sub_self, List.getElem?_replicate, if_pos (by simp)]
    simp only [drawAll]
    rw [draw_ok hk (hl r (by simp))]
    have hset : (pre ++ List.replicate ((r :: rows).length + extra) ({ label := "", curves := [] } : Axis α)).set num
        { label := label num, curves := [] ++ [r] } =
        (pre ++ [{ label := label num, curves := [r] }]) ++
          List.replicate (rows.length + extra) ({ label := "", curves := [] } : Axis α) := by
      rw [List.set_append_right _ _ (by omega), hp, Nat.sub_self, List.length_cons,
        show rows.length + 1 + extra = (rows.length + extra) + 1 by omega, List.replicate_succ]
      simp
    simp only [bind, Except.bind]
    rw [hset, drawAll_fresh tlen label rows (num + 1) extra _ (by simp [hp]) (fun x hx => hl x (by simp [hx]))]
    simp only [List.append_assoc, List.mapIdx_cons, List.cons_append, List.nil_append, Nat.add_zero]
    congr 4
    apply List.ext_getElem?
    intro i
    simp only [List.getElem?_mapIdx]
    cases rows[i]? <;> simp [Nat.add_comm, Nat.add_left_comm]

/-- **C69.**  With the residue, `plot_imfs` draws exactly one curve per axis: the components in order, labelled from 1, then the
residue, whenever there is at least one component. -/
theorem C69_with_residue (o : Obj α) (imfs : List (List α)) (residue : List α) (n : Nat) (hne : imfs ≠ [])
    (hl : ∀ r ∈ imfs, r.length = n) (hr : residue.length = n) (tlen : Option Nat) (ht : tlen = none ∨ tlen = some n) :
    ∃ axs, o.plotImfs (some imfs) (some residue) tlen true = .ok axs ∧ axs.length = imfs.length + 1 ∧
      (∀ (i : Nat) (imf : List α), imfs[i]? = some imf → axs[i]? = some { label := "IMF " ++ toString (i + 1), curves := [imf] }) ∧
      axs[imfs.length]? = some { label := "Res", curves := [residue] } := by
  have htl : tlen.getD (imfs.headD []).length = n := by
    rcases ht with rfl | rfl
    · cases imfs with
      | nil => exact absurd rfl hne
      | cons x xs => exact hl x (by simp)
    · rfl
  have hlen : 0 < imfs.length := List.length_pos_iff.2 hne
  have hsub : subplots (α := α) (imfs.length + 1) =
      .ok (.many (List.replicate (imfs.length + 1) { label := "", curves := [] })) := by
    unfold subplots
    rw [if_neg (by omega), if_neg (by omega)]
  have hall := drawAll_fresh n (fun num => "IMF " ++ toString (num + 1)) imfs 0 1 [] rfl hl
  simp only [List.nil_append, Nat.zero_add] at hall
  set drawn := imfs.mapIdx (fun i r => ({ label := "IMF " ++ toString (i + 1), curves := [r] } : Axis α)) with hdrawn
  have hdl : drawn.length = imfs.length := by simp [hdrawn]
  refine ⟨drawn ++ [{ label := "Res", curves := [residue] }], ?_, by simp [hdl], ?_, ?_⟩
  · unfold Obj.plotImfs
    simp only [Obj.checkImfs, Bool.true_and, Option.isNone_some, Bool.false_eq_true, if_false, bind, Except.bind, if_true, hsub, htl]
    simp only [hall]
    rw [draw_ok (ax := { label := "", curves := [] })]
    · simp [hdl]
    · simp [hdl]
    · exact hr
  · intro i imf hi
    have hil : i < imfs.length := (List.getElem?_eq_some_iff.1 hi).1
    rw [List.getElem?_append_left (by omega), hdrawn, List.getElem?_mapIdx, hi]
    rfl
  · rw [List.getElem?_append_right (by omega), hdl, Nat.sub_self]
    rfl

/-- **C69, partial.**  Without the residue, the same holds for two components or more.  Missing: a single component, see
`C69_counterexample`. -/
theorem C69_without_residue_partial (o : Obj α) (imfs : List (List α)) (residue : Option (List α)) (n : Nat)
    (hne : 2 ≤ imfs.length) (hl : ∀ r ∈ imfs, r.length = n) (tlen : Option Nat) (ht : tlen = none ∨ tlen = some n) :
    ∃ axs, o.plotImfs (some imfs) residue tlen false = .ok axs ∧ axs.length = imfs.length ∧
      ∀ (i : Nat) (imf : List α), imfs[i]? = some imf → axs[i]? = some { label := "IMF " ++ toString (i + 1), curves := [imf] } := by
  have htl : tlen.getD (imfs.headD []).length = n := by
    rcases ht with rfl | rfl
    · cases imfs with
      | nil => simp at hne
      | cons x xs => exact hl x (by simp)
    · rfl
  have hsub : subplots (α := α) imfs.length = .ok (.many (List.replicate imfs.length { label := "", curves := [] })) := by
    unfold subplots
    rw [if_neg (by omega), if_neg (by omega)]
  have hall := drawAll_fresh n (fun num => "IMF " ++ toString (num + 1)) imfs 0 0 [] rfl hl
  simp only [List.nil_append, Nat.zero_add, Nat.add_zero, List.replicate_zero, List.append_nil] at hall
  refine ⟨imfs.mapIdx (fun i r => ({ label := "IMF " ++ toString (i + 1), curves := [r] } : Axis α)), ?_, by simp, ?_⟩
  · unfold Obj.plotImfs
    simp only [Obj.checkImfs, Bool.false_and, Bool.false_eq_true, if_false, bind, Except.bind, hsub, htl, Nat.add_zero]
    simp only [hall]
    rfl
  · intro i imf hi
    rw [List.getElem?_mapIdx, hi]
    rfl

/-- **C69 is violated.**  A single component without residue raises `TypeError`. -/
theorem C69_counterexample (o : Obj α) (imf : List α) (residue : Option (List α)) (tlen : Option Nat) :
    o.plotImfs (some [imf]) residue tlen false = .error .typeError := by
  simp only [Obj.plotImfs, Obj.checkImfs, Bool.false_and, Bool.false_eq_true, if_false, bind, Except.bind, subplots]
  rfl

end LawFree

/-- Arguments first, then the object; the residue is only needed when requested. -/
example : okWith (fun x => x == ([[(1 : ℚ), 2]], some [3, 4]))
      (Obj.checkImfs { imfs := some [[(5 : ℚ), 6]], residue := some [3, 4] } (some [[(1 : ℚ), 2]]) none true) = true ∧
    okWith (fun x => x == ([[(5 : ℚ), 6]], none))
      (Obj.checkImfs { imfs := some [[(5 : ℚ), 6]], residue := none } none none false) = true ∧
    errIs .attributeError (Obj.checkImfs { imfs := some [[(5 : ℚ), 6]], residue := none } none none true) = true ∧
    errIs .attributeError (Obj.checkImfs { imfs := none, residue := some [(5 : ℚ), 6] } none none true) = true := by
  decide +kernel

/-- Two components and a residue. -/
example : okWith (fun axs : List (Axis ℚ) => axs.map (fun a => (a.label, a.curves)) ==
      [("IMF 1", [[(1 : ℚ), -1]]), ("IMF 2", [[2, 0]]), ("Res", [[5, 6]])])
    (Obj.plotImfs { imfs := some [[(1 : ℚ), -1], [2, 0]], residue := some [5, 6] } none none none true) = true := by
  decide +kernel

section Exact

open Spec Compact

variable {K : Type} [Field K] [LinearOrder K] [IsStrictOrderedRing K] [FloorRing K]

theorem npDiff_length (l : List K) : (npDiff l).length = l.length - 1 := by
  simp [npDiff]

/-- A valid filter parameter, or none. -/
def AlphaOk (alpha : Option K) : Prop := ∀ a, alpha = some a → |a| < 1 / 2

theorem pade6_total (vec : List K) (h : K) (hh : h ≠ 0) (hn : 7 ≤ vec.length) :
    ∃ x, pade6 vec h = .ok x ∧ x.length = vec.length := by
  obtain ⟨x, hx⟩ := tdma_total (pade6A (α := K) vec.length) (fun _ => lit 1) (pade6C vec.length)
    (pade6Rhs (fun i => vec.getD i (lit 0)) h vec.length) vec.length (by omega) (pade6_pivots _ hn)
  refine ⟨x, ?_, (tdma_solves _ _ _ _ _ _ hx).1⟩
  unfold pade6
  rw [if_neg (by omega), if_neg (by simpa using hh)]
  exact hx

theorem pyGet_last (l : List K) (x : K) : pyGet (l ++ [x]) (-1) = .ok x := by
  have : pyIdx (l ++ [x]).length (-1) = some l.length := by
    unfold pyIdx
    simp
  unfold pyGet
  rw [this]
  simp

theorem phaseDeriv_low (E : Ext K) (hpi : E.pi ≠ 0) {dt : K} (hdt : dt ≠ 0) (phase fs : List K) (x : K)
    (h : (npDiff phase).map (fun x => x / (2 * E.pi * dt)) = fs ++ [x]) :
    phaseDeriv E false dt phase = .ok (fs ++ [x] ++ [x]) := by
  have h2 : (lit 2 : K) * E.pi ≠ 0 := by rw [lit_two]; exact mul_ne_zero two_ne_zero hpi
  rw [← lit_two] at h
  unfold phaseDeriv
  rw [if_neg (by simp)]
  simp only [bind, Except.bind]
  rw [h, pyGet_last]
  simp only
  rw [if_neg (by rw [beq_iff_eq, lit_zero]; exact mul_ne_zero h2 hdt)]
  rfl

theorem phaseDeriv_total (E : Ext K) (hpi : E.pi ≠ 0) {dt : K} (hdt : dt ≠ 0) (order : Bool) (phase : List K)
    (hn : (if order then 7 else 2) ≤ phase.length) :
    ∃ fs, phaseDeriv E order dt phase = .ok fs ∧ fs.length = phase.length := by
  have h2 : (lit 2 : K) * E.pi ≠ 0 := by rw [lit_two]; exact mul_ne_zero two_ne_zero hpi
  cases order with
  | true =>
    simp only [if_true] at hn
    obtain ⟨x, hx, hl⟩ := pade6_total phase dt hdt hn
    refine ⟨x.map (fun x => x / (lit 2 * E.pi)), ?_, by simp [hl]⟩
    unfold phaseDeriv
    rw [if_pos rfl, hx]
    simp only [bind, Except.bind]
    rw [if_neg (by rw [beq_iff_eq, lit_zero]; exact h2)]
    rfl
  | false =>
    simp only [Bool.false_eq_true, if_false] at hn
    have hne : (npDiff phase).map (fun x => x / (lit 2 * E.pi * dt)) ≠ [] := by
      intro h
      have := congrArg List.length h
      rw [List.length_map, npDiff_length] at this
      simp at this
      omega
    rw [lit_two] at hne
    refine ⟨_, phaseDeriv_low E hpi hdt phase _ _ (List.dropLast_append_getLast hne).symm, ?_⟩
    simp [npDiff_length]
    omega

theorem rawPhase_total (E : Ext K) (hE : ∀ re im : List K, re.length = im.length → (E.unwrappedAngle re im).length = re.length)
    (hH : ∀ row : List K, (E.hilbert row).1.length = row.length ∧ (E.hilbert row).2.length = row.length)
    (alpha : Option K) (ha : AlphaOk alpha) (row : List K) (hn : (if alpha.isSome then 5 else 0) ≤ row.length) :
    ∃ p, rawPhase E alpha row = .ok p ∧ p.length = row.length := by
  unfold rawPhase
  cases alpha with
  | none => exact ⟨_, rfl, by rw [hE _ _ ((hH row).1.trans (hH row).2.symm), (hH row).1]⟩
  | some a =>
    simp only [Option.isSome_some, if_true] at hn
    have ha := ha a rfl
    obtain ⟨re, hre, hrel⟩ := C45_total (E.hilbert row).1 a ha (by rw [(hH row).1]; exact hn)
    obtain ⟨im, him, himl⟩ := C45_total (E.hilbert row).2 a ha (by rw [(hH row).2]; exact hn)
    have hr := abs_lt.1 ha
    refine ⟨E.unwrappedAngle re im, ?_, ?_⟩
    · simp only
      rw [if_pos ⟨by rw [lit_eq]; push_cast; linarith, by rw [lit_eq]; push_cast; linarith⟩, hre, him]
      rfl
    · rw [hE _ _ (by rw [hrel, himl, (hH row).1, (hH row).2]), hrel, (hH row).1]

theorem instFreqRow_total (E : Ext K) (hpi : E.pi ≠ 0) (order : Bool) (alpha : Option K) (ha : AlphaOk alpha) {dt : K} (hdt : dt ≠ 0)
    (row phase : List K) (hp : rawPhase E alpha row = .ok phase)
    (hn : (if order then 7 else if alpha.isSome then 5 else 2) ≤ phase.length) :
    ∃ fs, instFreqRow E order alpha dt row = .ok fs ∧ fs.length = phase.length := by
  have hn2 : (if order then 7 else 2) ≤ phase.length := by
    cases order <;> cases alpha <;> simp_all <;> omega
  unfold instFreqRow instPhase
  rw [hp]
  cases alpha with
  | none =>
    obtain ⟨fs, hfs, hl⟩ := phaseDeriv_total E hpi hdt order phase hn2
    refine ⟨fs, ?_, hl⟩
    simp only [bind, Except.bind, pure, Except.pure]
    rw [hfs]
  | some a =>
    have ha := ha a rfl
    have h5 : 5 ≤ phase.length := by
      cases order <;> simp_all <;> omega
    obtain ⟨ph, hph, hphl⟩ := C45_total phase a ha h5
    obtain ⟨fs, hfs, hl⟩ := phaseDeriv_total E hpi hdt order ph (by rw [hphl]; exact hn2)
    obtain ⟨gs, hgs, hgl⟩ := C45_total fs a ha (by omega)
    refine ⟨gs, ?_, by omega⟩
    simp only [bind, Except.bind]
    rw [hph]
    simp only
    rw [hfs]
    exact hgs

theorem pyGet_nat (t : List K) (i : ℕ) (h : i < t.length) : pyGet t (i : ℤ) = .ok (t.getD i 0) := by
  have : pyIdx t.length (i : ℤ) = some i := by
    unfold pyIdx
    simp [h]
  unfold pyGet
  rw [this]
  simp [h]

theorem instFreq_eq (E : Ext K) (order : Bool) (alpha : Option K) (sig : List (List K)) (t : List K) (ht : 2 ≤ t.length) :
    instFreq E order alpha sig t = CEEMDAN.mapE (instFreqRow E order alpha (t.getD 1 0 - t.getD 0 0)) sig := by
  have h1 := pyGet_nat t 1 (by omega)
  have h0 := pyGet_nat t 0 (by omega)
  unfold instFreq
  rw [show ((1 : ℤ)) = ((1 : ℕ) : ℤ) from rfl, h1, show ((0 : ℤ)) = ((0 : ℕ) : ℤ) from rfl, h0]
  rfl

/-- **C58, partial.**  One value per sample, in every mode.  Missing: rows too short for the filter (five samples) or the
high-order scheme (seven), see C45 and C46. -/
theorem C58_length_partial (E : Ext K) (hE : ∀ re im : List K, re.length = im.length → (E.unwrappedAngle re im).length = re.length)
    (hH : ∀ row : List K, (E.hilbert row).1.length = row.length ∧ (E.hilbert row).2.length = row.length)
    (hpi : E.pi ≠ 0) (order : Bool) (alpha : Option K) (ha : AlphaOk alpha) (sig : List (List K)) (t : List K) (n : ℕ)
    (hrows : ∀ row ∈ sig, row.length = n) (ht : 2 ≤ t.length) (hdt : t.getD 1 0 ≠ t.getD 0 0)
    (hn : (if order then 7 else if alpha.isSome then 5 else 2) ≤ n) :
    ∃ freqs, instFreq E order alpha sig t = .ok freqs ∧ freqs.length = sig.length ∧ ∀ row ∈ freqs, row.length = n := by
  have hdt' : t.getD 1 0 - t.getD 0 0 ≠ 0 := sub_ne_zero.2 hdt
  rw [instFreq_eq _ _ _ _ _ ht]
  have hall : ∀ row ∈ sig, ∃ fs, instFreqRow E order alpha (t.getD 1 0 - t.getD 0 0) row = .ok fs ∧ fs.length = n := by
    intro row hrow
    obtain ⟨p, hp, hpl⟩ := rawPhase_total E hE hH alpha ha row (by
      rw [hrows row hrow]
      cases order <;> cases alpha <;> simp_all <;> omega)
    rw [hrows row hrow] at hpl
    obtain ⟨fs, hfs, hl⟩ := instFreqRow_total E hpi order alpha ha hdt' row p hp (by rw [hpl]; exact hn)
    exact ⟨fs, hfs, by rw [hl, hpl]⟩
  clear hrows
  induction sig with
  | nil => exact ⟨[], rfl, rfl, by simp⟩
  | cons row sig ih =>
    obtain ⟨fs, hfs, hl⟩ := hall row (by simp)
    obtain ⟨rest, hrest, hrl, hr⟩ := ih (fun r hr => hall r (by simp [hr]))
    refine ⟨fs :: rest, ?_, by simp [hrl], ?_⟩
    · simp only [CEEMDAN.mapE]
      rw [hfs, hrest]
    · intro r hr'
      rcases List.mem_cons.1 hr' with rfl | h
      · exact hl
      · exact hr r h

theorem npDiff_samples (n : ℕ) (p : ℕ → K) : npDiff (samples n p) = samples (n - 1) (fun i => p (i + 1) - p i) := by
  apply List.ext_getElem?
  intro i
  unfold npDiff samples
  by_cases hi : i < n - 1
  · simp [List.getElem?_zipWith, hi, show i + 1 < n by omega, show i < n by omega]
  · have h1 : ¬ i + 1 < n := by omega
    simp [List.getElem?_zipWith, hi, h1]

theorem samples_const_succ (n : ℕ) (c : K) : samples (n + 1) (fun _ => c) = samples n (fun _ => c) ++ [c] := by
  simp [samples, List.range_succ]

/-- **C58, partial.**  A component whose unwrapped phase is `a + b t` has the constant frequency `b / (2 π)`, in every mode.
Missing: rows too short for the filter (five samples) or the high-order scheme (seven). -/
theorem C58_linear_partial (E : Ext K) (hpi : E.pi ≠ 0) (order : Bool) (alpha : Option K) (ha : AlphaOk alpha)
    (sig : List (List K)) (t0 dt : K) (hdt : dt ≠ 0) (n : ℕ) (hn : (if order then 7 else if alpha.isSome then 5 else 2) ≤ n)
    (a b : ℕ → K)
    (hp : ∀ k row, sig[k]? = some row → rawPhase E alpha row = .ok (samples n (fun i => a k + b k * (t0 + i * dt)))) :
    ∃ freqs, instFreq E order alpha sig (samples n (fun i => t0 + i * dt)) = .ok freqs ∧ freqs.length = sig.length ∧
      ∀ k < sig.length, freqs[k]? = some (samples n (fun _ => b k / (2 * E.pi))) := by
  have hn2 : 2 ≤ n := by cases order <;> cases alpha <;> simp_all <;> omega
  have htl : (samples n (fun i => t0 + i * dt)).length = n := by simp [samples]
  rw [instFreq_eq _ _ _ _ _ (by omega), samples_getD _ _ _ (by omega), samples_getD _ _ _ (by omega)]
  have hd : t0 + ((1 : ℕ) : K) * dt - (t0 + ((0 : ℕ) : K) * dt) = dt := by push_cast; ring
  rw [hd]
  have hrow : ∀ k row, sig[k]? = some row →
      instFreqRow E order alpha dt row = .ok (samples n (fun _ => b k / (2 * E.pi))) := by
    intro k row hk
    have hph := hp k row hk
    have hpoly : samples n (fun i => a k + b k * (t0 + i * dt)) = samples n (fun i => polyVal [a k, b k] (t0 + i * dt)) := by
      unfold samples
      refine List.map_congr_left (fun i _ => ?_)
      simp [polyVal]
      ring
    have hconst : samples n (fun _ => b k / (2 * E.pi)) = samples n (fun i => polyVal [b k / (2 * E.pi)] (t0 + i * dt)) := by
      unfold samples
      refine List.map_congr_left (fun i _ => ?_)
      simp [polyVal]
    have hder : phaseDeriv E order dt (samples n (fun i => a k + b k * (t0 + i * dt))) =
        .ok (samples n (fun _ => b k / (2 * E.pi))) := by
      cases order with
      | true =>
        simp only [if_true] at hn
        have h2 : (lit 2 : K) * E.pi ≠ 0 := by rw [lit_two]; exact mul_ne_zero two_ne_zero hpi
        unfold phaseDeriv
        rw [if_pos rfl, hpoly, C46_derivative_partial n hn t0 dt hdt [a k, b k] (by simp)]
        simp only [bind, Except.bind]
        rw [if_neg (by rw [beq_iff_eq, lit_zero]; exact h2)]
        simp only [pure, Except.pure]
        congr 1
        unfold samples
        rw [List.map_map]
        refine List.map_congr_left (fun i _ => ?_)
        simp [polyVal, polyDeriv, scaled, lit_two]
      | false =>
        obtain ⟨m, rfl⟩ : ∃ m, n = m + 2 := ⟨n - 2, by omega⟩
        have := phaseDeriv_low E hpi hdt (samples (m + 2) (fun i => a k + b k * (t0 + i * dt)))
          (samples m (fun _ => b k / (2 * E.pi))) (b k / (2 * E.pi)) (by
            rw [npDiff_samples, ← samples_const_succ]
            unfold samples
            rw [List.map_map]
            refine List.map_congr_left (fun i _ => ?_)
            simp only [Function.comp]
            push_cast
            field_simp
            ring)
        rw [this, ← samples_const_succ, ← samples_const_succ]
    unfold instFreqRow instPhase
    rw [hph]
    cases alpha with
    | none =>
      simp only [bind, Except.bind, pure, Except.pure]
      rw [hder]
    | some al =>
      have ha := ha al rfl
      have h5 : 5 ≤ n := by cases order <;> simp_all <;> omega
      simp only [bind, Except.bind]
      rw [hpoly, C45_cubic al ha n h5 t0 dt [a k, b k] (by simp), ← hpoly]
      simp only
      rw [hder]
      simp only
      rw [hconst]
      exact C45_cubic al ha n h5 t0 dt [b k / (2 * E.pi)] (by simp)
  clear hp
  induction sig generalizing a b with
  | nil => exact ⟨[], rfl, rfl, by simp⟩
  | cons row sig ih =>
    obtain ⟨rest, hrest, hrl, hr⟩ := ih (fun k => a (k + 1)) (fun k => b (k + 1)) (fun k r hk => hrow (k + 1) r (by simpa using hk))
    refine ⟨samples n (fun _ => b 0 / (2 * E.pi)) :: rest, ?_, by simp [hrl], ?_⟩
    · simp only [CEEMDAN.mapE]
      rw [hrow 0 row rfl, hrest]
    · intro k hk
      cases k with
      | zero => rfl
      | succ k => simpa using hr k (by simpa using hk)

/-- **C58** does not hold for every number of samples: rows of one sample (low order) raise `IndexError`, rows of four samples with a
filter too, and rows of six samples with the high-order scheme divide by zero. -/
theorem C58_counterexample (E : Ext K) (hE : ∀ re im : List K, re.length = im.length → (E.unwrappedAngle re im).length = re.length)
    (hH : ∀ row : List K, (E.hilbert row).1.length = row.length ∧ (E.hilbert row).2.length = row.length) (a : K) (ha : |a| < 1 / 2)
    (row t : List K) (ht : 2 ≤ t.length) (hdt : t.getD 1 0 ≠ t.getD 0 0) :
    (row.length = 1 → instFreq E false none [row] t = .error .indexError) ∧
    (row.length = 4 → instFreq E false (some a) [row] t = .error .indexError) ∧
    (row.length = 6 → instFreq E true none [row] t = .error .nonFinite) := by
  have hl : (E.unwrappedAngle (E.hilbert row).1 (E.hilbert row).2).length = row.length := by
    rw [hE _ _ ((hH row).1.trans (hH row).2.symm), (hH row).1]
  simp only [instFreq_eq _ _ _ _ _ ht, CEEMDAN.mapE, instFreqRow, instPhase, rawPhase]
  refine ⟨fun h1 => ?_, fun h4 => ?_, fun h6 => ?_⟩
  · have : npDiff (E.unwrappedAngle (E.hilbert row).1 (E.hilbert row).2) = [] := by
      apply List.eq_nil_of_length_eq_zero
      rw [npDiff_length, hl, h1]
    simp only [bind, Except.bind, pure, Except.pure, phaseDeriv, this]
    rfl
  · have h2 : lit (-1 / 2) < a ∧ a < lit (1 / 2) := by
      simp only [lit_eq]
      obtain ⟨x, y⟩ := abs_lt.1 ha
      constructor <;> push_cast <;> linarith
    rw [if_pos h2]
    have : filt6 (E.hilbert row).1 a = .error .indexError := C45_short _ _ (by rw [(hH row).1]; omega)
    simp only [bind, Except.bind, this]
  · simp only [bind, Except.bind, pure, Except.pure, phaseDeriv, C46_counterexample _ _ (hl.trans h6)]
    rfl

/-! ## C85 -/

theorem plotInstantFreq_valid (E : Ext K) (o : Obj K) (t : List K) (imfs : Option (List (List K))) (order : Bool) (alpha : Option K)
    (ha : AlphaOk alpha) : o.plotInstantFreq E t imfs order alpha = (do
      let (imfs, _) ← o.checkImfs imfs none false
      let freqs ← instFreq E order alpha imfs t
      match ← subplots imfs.length with
      | .one ax => drawAll t.length (fun num => "IMF " ++ toString (num + 1) ++ " [Hz]") 0 freqs [ax]
      | .many axs => drawAll t.length (fun num => "IMF " ++ toString (num + 1) ++ " [Hz]") 0 freqs axs) := by
  unfold Obj.plotInstantFreq
  cases alpha with
  | none => rfl
  | some a =>
    obtain ⟨x, y⟩ := abs_lt.1 (ha a rfl)
    refine if_pos ?_
    simp only [lit_eq, Bool.and_eq_true, decide_eq_true_eq]
    constructor <;> push_cast <;> linarith

/-- **C85.**  With a valid filter parameter and rows long enough for the chosen scheme, `plot_instant_freq` draws one axis per
component, in order, labelled `IMF 1 [Hz]`, `IMF 2 [Hz]`, …, each with the instantaneous frequency of its component. -/
theorem C85_plot (E : Ext K) (hE : ∀ re im : List K, re.length = im.length → (E.unwrappedAngle re im).length = re.length)
    (hH : ∀ row : List K, (E.hilbert row).1.length = row.length ∧ (E.hilbert row).2.length = row.length)
    (hpi : E.pi ≠ 0) (o : Obj K) (order : Bool) (alpha : Option K) (ha : AlphaOk alpha) (imfs : Option (List (List K)))
    (rows : List (List K)) (hrows : firstOf imfs o.imfs = some rows) (hne : rows ≠ []) (t : List K)
    (hl : ∀ row ∈ rows, row.length = t.length) (hdt : t.getD 1 0 ≠ t.getD 0 0)
    (hn : (if order then 7 else if alpha.isSome then 5 else 2) ≤ t.length) :
    ∃ freqs axs, instFreq E order alpha rows t = .ok freqs ∧ freqs.length = rows.length ∧
      o.plotInstantFreq E t imfs order alpha = .ok axs ∧ axs.length = rows.length ∧
      ∀ (k : Nat) (f : List K), freqs[k]? = some f → axs[k]? = some { label := "IMF " ++ toString (k + 1) ++ " [Hz]", curves := [f] } := by
  have ht : 2 ≤ t.length := by cases order <;> cases alpha <;> simp_all <;> omega
  obtain ⟨freqs, hf, hfl, hfr⟩ := C58_length_partial E hE hH hpi order alpha ha rows t t.length hl ht hdt hn
  have hpos : 0 < rows.length := List.length_pos_iff.2 hne
  have hall := drawAll_fresh t.length (fun num => "IMF " ++ toString (num + 1) ++ " [Hz]") freqs 0 0 [] rfl hfr
  simp only [List.nil_append, Nat.zero_add, Nat.add_zero, List.replicate_zero, List.append_nil] at hall
  have hc := (C59_check_imfs o imfs none false).1 rows hrows (by simp)
  refine ⟨freqs, freqs.mapIdx (fun i r => { label := "IMF " ++ toString (i + 1) ++ " [Hz]", curves := [r] }), hf, hfl, ?_, ?_, ?_⟩
  · rw [plotInstantFreq_valid _ _ _ _ _ _ ha, hc]
    simp only [bind, Except.bind, hf]
    by_cases h1 : rows.length = 1
    · have hs : subplots (α := K) rows.length = .ok (.one { label := "", curves := [] }) := by
        unfold subplots
        rw [if_neg (by omega), if_pos h1]
      rw [hs]
      rw [hfl, h1] at hall
      exact hall
    · have hs : subplots (α := K) rows.length = .ok (.many (List.replicate rows.length { label := "", curves := [] })) := by
        unfold subplots
        rw [if_neg (by omega), if_neg h1]
      rw [hs]
      rw [hfl] at hall
      exact hall
  · rw [List.length_mapIdx, hfl]
  · intro k f hk
    rw [List.getElem?_mapIdx, hk]
    rfl

/-- **C85** (refusals) A filter parameter outside the open interval from -1/2 to 1/2 is refused before anything else; without
components `AttributeError` is raised. -/
theorem C85_refuses (E : Ext K) (o : Obj K) (t : List K) (imfs : Option (List (List K))) (order : Bool) :
    (∀ a, 1 / 2 ≤ |a| → o.plotInstantFreq E t imfs order (some a) = .error .assertionError) ∧
    (∀ alpha, AlphaOk alpha → firstOf imfs o.imfs = none → o.plotInstantFreq E t imfs order alpha = .error .attributeError) := by
  constructor
  · intro a h
    unfold Obj.plotInstantFreq
    dsimp only
    rw [if_neg]
    simp only [lit_eq, Bool.and_eq_true, decide_eq_true_eq]
    rintro ⟨x, y⟩
    push_cast at x y
    have : |a| < 1 / 2 := abs_lt.2 ⟨by linarith, y⟩
    linarith
  · intro alpha ha hi
    rw [plotInstantFreq_valid _ _ _ _ _ _ ha, (C59_check_imfs o imfs none false).2 (.inl hi)]
    rfl

end Exact

/-- External functions for the examples: the "phase" is the row itself. -/
def sampleVisExt : Ext ℚ := { hilbert := fun r => (r, r), unwrappedAngle := fun re _ => re, pi := 3 }

/-- A phase with slope 6 per sample, all modes. -/
example : ([(false, none), (false, some (1 / 4)), (true, none), (true, some (1 / 4))] : List (Bool × Option ℚ)).all (fun m =>
    okWith (fun f => f == [[1, 1, 1, 1, 1, 1, 1]])
      (instFreq sampleVisExt m.1 m.2 [[0, 6, 12, 18, 24, 30, 36]] [0, 1, 2, 3, 4, 5, 6])) = true := by
  decide +kernel

/-- The hypotheses hold for the example. -/
example : sampleVisExt.pi ≠ 0 ∧ AlphaOk (some (1 / 4 : ℚ)) ∧ AlphaOk (none : Option ℚ) ∧
    (∀ re im : List ℚ, re.length = im.length → (sampleVisExt.unwrappedAngle re im).length = re.length) ∧
    okWith (fun p => p == Spec.samples 7 (fun i => (0 : ℚ) + 6 * (0 + i * 1)))
      (rawPhase sampleVisExt (some (1 / 4)) [0, 6, 12, 18, 24, 30, 36]) = true := by
  refine ⟨by decide, ?_, ?_, fun re im _ => rfl, by decide +kernel⟩
  · intro a h
    cases h
    rw [abs_of_pos] <;> norm_num
  · intro a h
    cases h

/-- Components held by the object, two axes; a parameter on the border of the interval is refused. -/
example : okWith (fun axs : List (Axis ℚ) => axs.map (fun a => (a.label, a.curves)) ==
      [("IMF 1 [Hz]", [[(1 : ℚ), 1, 1]]), ("IMF 2 [Hz]", [[2, 3, 3]])])
    (Obj.plotInstantFreq sampleVisExt { imfs := some [[0, 6, 12], [0, 12, 30]], residue := none } [0, 1, 2] none false none) = true ∧
    errIs .assertionError (Obj.plotInstantFreq sampleVisExt { imfs := some [[0, 6, 12, 18, 24]], residue := none } [0, 1, 2, 3, 4] none
      false (some (-1 / 2))) = true := by
  decide +kernel

example : okWith (fun _ => true) (Obj.plotInstantFreq sampleVisExt { imfs := some [[0, 6, 12, 18, 24]], residue := none }
    [0, 1, 2, 3, 4] none false (some (-1 / 3))) = true := by
  decide +kernel

end Vis
end PyEMD
