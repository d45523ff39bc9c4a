import Verif.Props.EemdReversal
import Verif.Props.Ceemdan

/-!
# C164: the direction of time in `CEEMDAN`
-/

set_option linter.unusedSectionVars false

namespace PyEMD
namespace CEEMDAN
open EMD (timeArr vadd_reverse vsub_reverse sumRows_reverse npMax_reverse npMin_reverse)
open EMD.Spec (ReversibleAll Occurs NoTies)
open EEMD (poolMap poolMap_map poolMap_mem generateNoise chunkSize chunkLengths)
open EEMD.Spec (Sized)

variable {K ρ : Type} [Field K] [LinearOrder K] [IsStrictOrderedRing K] [FloorRing K]

/-- When arrays of rows of `n` samples are drawn, the second generator draws the rows of the first, each of them backwards. -/
structure RowsBackwards (rng rng' : Rng K ρ) (n : Nat) : Prop where
  normal : ∀ r s t, (rng'.normal r s (t * n)).2 = (rng.normal r s (t * n)).2 ∧
    ∀ i < t, ∀ j < n, (rng'.normal r s (t * n)).1[i * n + j]? = (rng.normal r s (t * n)).1[i * n + (n - 1 - j)]?
  uniform : ∀ r a b t, (rng'.uniform r a b (t * n)).2 = (rng.uniform r a b (t * n)).2 ∧
    ∀ i < t, ∀ j < n, (rng'.uniform r a b (t * n)).1[i * n + j]? = (rng.uniform r a b (t * n)).1[i * n + (n - 1 - j)]?

/-- In the decomposition of `x` into at most `m` IMFs no proto-mode has two equal neighbouring samples. -/
def Free (sp : SciPy K) (cfg : EMD.Cfg K) (x : List K) (m : Int) : Prop :=
  ∀ y, Occurs sp cfg ((List.range x.length).map (fun k : Nat => (k : K))) x m [] (-1) y → NoTies y

/-- The states of the loop over the stages: components found so far and what is left; `S` is the normalised signal. -/
inductive Stage (std : List K → K) (fuel : Nat) (sp : SciPy K) (cfg : Cfg K) (ecfg : EMD.Cfg K) (noise : List (List (List K))) (order : List Nat)
    (S : List K) (T : Option (List K)) (m : Int) : List (List K) → List K → Prop
  | first {first : List K} {rest : List (List K)} : eemd fuel sp cfg ecfg noise order S T 1 = .ok (first :: rest) →
      Stage std fuel sp cfg ecfg noise order S T m [first] (vsub S first)
  | next {c : List (List K)} {prev mean : List K} : Stage std fuel sp cfg ecfg noise order S T m c prev →
      endCondition fuel sp cfg ecfg S c m = .ok false → localMean std fuel sp cfg ecfg noise prev T c.length = .ok mean →
      Stage std fuel sp cfg ecfg noise order S T m (c ++ [vsub prev mean]) mean

/-- The signals that are given to `EMD` once the noise has been decomposed, with the limit of IMFs: the signal plus noise, what the components leave, and
what is left plus noise. -/
inductive Fed (std : List K → K) (fuel : Nat) (sp : SciPy K) (cfg : Cfg K) (ecfg : EMD.Cfg K) (noise : List (List (List K))) (order : List Nat)
    (S : List K) (T : Option (List K)) (m : Int) : List K → Prop
  | trial {i : List K} {rest : List (List K)} : i :: rest ∈ noise → Fed std fuel sp cfg ecfg noise order S T m (vadd S (vscale cfg.epsilon i))
  | test {c : List (List K)} {prev : List K} : Stage std fuel sp cfg ecfg noise order S T m c prev → ¬(0 < m ∧ m ≤ (c.length : Int)) →
      Fed std fuel sp cfg ecfg noise order S T m (vsub S (sumRows S.length c))
  | stage {c : List (List K)} {prev x : List K} {imfs : List (List K)} : Stage std fuel sp cfg ecfg noise order S T m c prev →
      endCondition fuel sp cfg ecfg S c m = .ok false → imfs ∈ noise → imfs[c.length]? = some x →
      Fed std fuel sp cfg ecfg noise order S T m (vadd prev (vscale (cfg.epsilon * std prev) x))
  | bare {c : List (List K)} {prev : List K} {imfs : List (List K)} : Stage std fuel sp cfg ecfg noise order S T m c prev →
      endCondition fuel sp cfg ecfg S c m = .ok false → imfs ∈ noise → imfs[c.length]? = none → Fed std fuel sp cfg ecfg noise order S T m prev

theorem length_vsub {n : Nat} {a b : List K} (ha : a.length = n) (hb : b.length = n) : (vsub a b).length = n := by
  simp [vsub, ha, hb]

theorem length_vadd {n : Nat} {a b : List K} (ha : a.length = n) (hb : b.length = n) : (vadd a b).length = n := by
  simp [vadd, ha, hb]

theorem vdiv_rev (a : List K) (c : K) : vdiv a.reverse c = (vdiv a c).reverse := by simp [vdiv]

theorem vscale_rev (c : K) (a : List K) : vscale c a.reverse = (vscale c a).reverse := by simp [vscale]

theorem emd_rev {fuel : Nat} {sp : SciPy K} {ecfg : EMD.Cfg K} (hE : EEMD.Sound fuel sp ecfg) (x : List K) (T : Option (List K)) (m : Int)
    (hf : Free sp ecfg x m) : emd fuel sp ecfg x.reverse T m = (emd fuel sp ecfg x T m).map (List.map List.reverse) := by
  have h := EMD.emdPure_reverse fuel hE.rev hE.simple hE.nbsym x T m hf
  unfold emd
  cases h4 : EMD.emdPure fuel sp ecfg x T m with
  | error e =>
    cases h5 : EMD.emdPure fuel sp ecfg x.reverse T m with
    | error e' => rw [h4, h5] at h; exact congrArg Except.error (Eq.symm h)
    | ok R' => rw [h4, h5] at h; exact h.elim
  | ok R =>
    cases h5 : EMD.emdPure fuel sp ecfg x.reverse T m with
    | error e' => rw [h4, h5] at h; exact h.elim
    | ok R' =>
      rw [h4, h5] at h
      exact congrArg Except.ok h.1

theorem mapE_map {β γ β' γ' : Type} {f : β → PyM γ} {f' : β' → PyM γ'} {h : β → β'} {g : γ → γ'} :
    ∀ l : List β, (∀ x ∈ l, f' (h x) = (f x).map g) → mapE f' (l.map h) = (mapE f l).map (List.map g) := by
  intro l
  induction l with
  | nil => intro _; rfl
  | cons x l ih =>
    intro hf
    rw [List.map_cons, mapE, mapE, hf x (by simp), ih (fun y hy => hf y (by simp [hy]))]
    cases f x with
    | error e => rfl
    | ok a =>
      cases mapE f l with
      | error e => rfl
      | ok as => rfl

theorem mapE_mem {β γ : Type} {f : β → PyM γ} {l : List β} {ys : List γ} (h : mapE f l = .ok ys) {y : γ} (hy : y ∈ ys) : ∃ x ∈ l, f x = .ok y :=
  mem_of_forall₂ (mapE_ok.1 h) hy

theorem reshape_get (n : Nat) : ∀ (t : Nat) (l : List K) (i : Nat), i < t → (reshape n t l)[i]? = some ((l.drop (i * n)).take n) := by
  intro t
  induction t with
  | zero => intro l i hi; omega
  | succ t ih =>
    intro l i hi
    cases i with
    | zero => simp [reshape]
    | succ i =>
      rw [reshape, List.getElem?_cons_succ, ih _ _ (by omega), List.drop_drop]
      congr 3
      rw [Nat.succ_mul]
      omega

theorem reshape_rev {n t : Nat} {l l' : List K} (hl : l.length = t * n) (hl' : l'.length = t * n)
    (h : ∀ i < t, ∀ j < n, l'[i * n + j]? = l[i * n + (n - 1 - j)]?) : reshape n t l' = (reshape n t l).map List.reverse := by
  apply List.ext_getElem?
  intro i
  rw [List.getElem?_map]
  by_cases hi : i < t
  · rw [reshape_get _ _ _ _ hi, reshape_get _ _ _ _ hi, Option.map_some]
    congr 1
    have hb : i * n + n ≤ t * n := by
      rw [← Nat.succ_mul]
      exact Nat.mul_le_mul_right _ hi
    have e1 : ((l.drop (i * n)).take n).length = n := by simp; omega
    have e2 : ((l'.drop (i * n)).take n).length = n := by simp; omega
    apply List.ext_getElem?
    intro j
    by_cases hj : j < n
    · rw [List.getElem?_reverse (by rw [e1]; exact hj), e1, List.getElem?_take_of_lt hj, List.getElem?_drop, h i hi j hj,
        List.getElem?_take_of_lt (by omega), List.getElem?_drop]
    · rw [List.getElem?_eq_none (by omega), List.getElem?_eq_none (by rw [List.length_reverse]; omega)]
  · rw [List.getElem?_eq_none (by rw [length_reshape]; omega), List.getElem?_eq_none (by rw [length_reshape]; omega)]
    rfl

theorem noises_rev {rng rng' : Rng K ρ} {n : Nat} (hr : RowsBackwards rng rng' n) (hz : Sized rng) (hz' : Sized rng') (cfg : Cfg K) (r : ρ) :
    noises rng' cfg r n = ((noises rng cfg r n).1.map (List.map List.reverse), (noises rng cfg r n).2) := by
  unfold noises
  cases cfg.noiseKind with
  | normal =>
    obtain ⟨h1, h2⟩ := hr.normal r cfg.noiseScale cfg.trials
    have := reshape_rev (hz.1 r cfg.noiseScale (cfg.trials * n)) (hz'.1 r cfg.noiseScale (cfg.trials * n)) h2
    simp only [generateNoise, h1, this]
    rfl
  | uniform =>
    obtain ⟨h1, h2⟩ := hr.uniform r (-cfg.noiseScale / lit 2) (cfg.noiseScale / lit 2) cfg.trials
    have := reshape_rev (hz.2 r (-cfg.noiseScale / lit 2) (cfg.noiseScale / lit 2) (cfg.trials * n)) (hz'.2 _ _ _ _) h2
    simp only [generateNoise, h1, this]
    rfl
  | unknown => rfl

theorem normalise_rev {std : List K → K} (hs : ∀ l, std l.reverse = std l) (imfs : List (List K)) :
    normalise std (imfs.map List.reverse) = (normalise std imfs).map (List.map List.reverse) := by
  cases imfs with
  | nil => rfl
  | cons i imfs =>
    rw [List.map_cons, normalise, normalise, hs]
    by_cases h : (std i == lit 0) = true
    · rw [if_pos h, if_pos h]; rfl
    · rw [if_neg h, if_neg h, ← List.map_cons]
      show Except.ok _ = Except.ok _
      rw [List.map_map, List.map_map]
      congr 1
      apply List.map_congr_left
      intro r _
      exact vdiv_rev r _

theorem normalise_len {std : List K → K} {n : Nat} {imfs out : List (List K)} (h : normalise std imfs = .ok out) (hl : ∀ r ∈ imfs, r.length = n) :
    ∀ r ∈ out, r.length = n := by
  unfold normalise at h
  split at h
  · cases h
  · split at h
    · cases h
    · injection h with h
      subst h
      intro r hr
      obtain ⟨r', hr', rfl⟩ := List.mem_map.1 hr
      rw [vdiv, List.length_map]
      exact hl r' hr'

theorem mem_of_pieces {β : Type} : ∀ (ns : List Nat) (l : List β) {c : List β} {x : β}, c ∈ pieces ns l → x ∈ c → x ∈ l := by
  intro ns
  induction ns with
  | nil => intro l c x hc; cases hc
  | cons n ns ih =>
    intro l c x hc hx
    rcases List.mem_cons.1 hc with rfl | hc
    · exact List.mem_of_mem_take hx
    · exact List.mem_of_mem_drop (ih _ hc hx)

theorem pieces_rev {β γ : Type} (f : β → γ) : ∀ (ns : List Nat) (l : List β), pieces ns (l.map f) = (pieces ns l).map (List.map f) := by
  intro ns
  induction ns with
  | nil => intro l; rfl
  | cons n ns ih => intro l; rw [pieces, pieces, List.map_cons, ← ih]; simp

theorem decomposeNoise_rev {std : List K → K} (hs : ∀ l, std l.reverse = std l) {fuel : Nat} {sp : SciPy K} {ecfg : EMD.Cfg K}
    (hE : EEMD.Sound fuel sp ecfg) (cfg : Cfg K) (order : List Nat) (x : List (List K)) {n : Nat} (hx : ∀ r ∈ x, r.length = n)
    (hf : ∀ r ∈ x, Free sp ecfg r (-1)) :
    decomposeNoise std fuel sp cfg ecfg order (x.map List.reverse) =
      (decomposeNoise std fuel sp cfg ecfg order x).map (List.map (List.map List.reverse)) ∧
    ∀ out, decomposeNoise std fuel sp cfg ecfg order x = .ok out → Lens n out := by
  have hrun : ∀ l : List (List K), (∀ r ∈ l, r ∈ x) → mapE (fun x => emd fuel sp ecfg x none (-1)) (l.map List.reverse) =
      (mapE (fun x => emd fuel sp ecfg x none (-1)) l).map (List.map (List.map List.reverse)) :=
    fun l hl => mapE_map l (fun r hr => emd_rev hE r none (-1) (hf r (hl r hr)))
  have hlen : ∀ l : List (List K), (∀ r ∈ l, r ∈ x) → ∀ out, mapE (fun x => emd fuel sp ecfg x none (-1)) l = .ok out → Lens n out := by
    intro l hl out ho imfs hi r hr
    obtain ⟨y, hy, h⟩ := mapE_mem ho hi
    rw [(emd_ok h).2 r hr]
    exact hx y (hl y hy)
  let raw := fun x : List (List K) => if cfg.parallel then
        poolMap ((pieces (chunkLengths cfg.trials (chunkSize cfg.trials cfg.processes)) x).map (fun c => mapE (fun x => emd fuel sp ecfg x none (-1)) c)) order
      else mapE (fun x => emd fuel sp ecfg x none (-1)) x
  have hraw : raw (x.map List.reverse) = (raw x).map (List.map (List.map List.reverse)) ∧ ∀ out, raw x = .ok out → Lens n out := by
    show (if cfg.parallel then _ else _) = Except.map _ (if cfg.parallel then _ else _) ∧ ∀ out, (if cfg.parallel then _ else _) = _ → _
    cases cfg.parallel with
    | false => exact ⟨hrun x (fun _ h => h), hlen x (fun _ h => h)⟩
    | true =>
      simp only [if_true]
      refine ⟨?_, ?_⟩
      · rw [← poolMap_map, pieces_rev, List.map_map, List.map_map]
        congr 1
        apply List.map_congr_left
        intro c hc
        exact hrun c (fun r hr => mem_of_pieces _ _ hc hr)
      · intro out ho
        refine poolMap_mem (P := fun imfs => ∀ r ∈ imfs, r.length = n) ?_ ho
        intro l hl
        obtain ⟨c, hc, hl⟩ := List.mem_map.1 hl
        exact hlen c (fun r hr => mem_of_pieces _ _ hc hr) l hl
  have hu : ∀ x, decomposeNoise std fuel sp cfg ecfg order x = (match raw x with
      | .error e => .error e
      | .ok l => if cfg.betaProgress then mapE (normalise std) l else .ok l) := fun x => rfl
  rw [hu, hu, hraw.1]
  have h2 := hraw.2
  revert h2
  generalize raw x = u
  intro h2
  cases u with
  | error e => exact ⟨rfl, by intro out h; cases h⟩
  | ok l =>
    have hL := h2 l rfl
    show (if cfg.betaProgress then mapE (normalise std) (l.map (List.map List.reverse)) else Except.ok (l.map (List.map List.reverse))) = _ ∧ _
    cases cfg.betaProgress with
    | false =>
      refine ⟨rfl, ?_⟩
      intro out h
      injection h with h
      subst h
      exact hL
    | true =>
      refine ⟨mapE_map l (fun r _ => normalise_rev hs r), ?_⟩
      intro out h imfs hi
      obtain ⟨y, hy, h⟩ := mapE_mem h hi
      exact normalise_len h (hL y hy)

theorem accumulate_rev {n : Nat} {E I : List (List K)} (hE : ∀ r ∈ E, r.length = n) (hI : ∀ r ∈ I, r.length = n) :
    accumulate n (E.map List.reverse) (I.map List.reverse) = (accumulate n E I).map List.reverse ∧ ∀ r ∈ accumulate n E I, r.length = n := by
  have hz : (vzeros n : List K).reverse = vzeros n := by simp [vzeros]
  have h : E.map List.reverse ++ List.replicate ((I.map List.reverse).length - (E.map List.reverse).length) (vzeros n) =
      (E ++ List.replicate (I.length - E.length) (vzeros n)).map List.reverse := by
    rw [List.map_append, List.map_replicate, hz, List.length_map, List.length_map]
  have hP : ∀ r ∈ E ++ List.replicate (I.length - E.length) (vzeros n), r.length = n := by
    intro r hr
    rcases List.mem_append.1 hr with hr | hr
    · exact hE r hr
    · rw [List.eq_of_mem_replicate hr]; simp [vzeros]
  unfold accumulate
  dsimp only
  rw [h, List.length_map]
  revert hP
  generalize E ++ List.replicate (I.length - E.length) (vzeros n) = P
  intro hP
  have key : ∀ A B : List (List K), (∀ r ∈ A, r.length = n) → (∀ r ∈ B, r.length = n) →
      List.zipWith (fun a b => vadd a b) (A.map List.reverse) (B.map List.reverse) = (List.zipWith (fun a b => vadd a b) A B).map List.reverse ∧
      ∀ r ∈ List.zipWith (fun a b => vadd a b) A B, r.length = n := by
    intro A
    induction A with
    | nil => intro B _ _; exact ⟨rfl, by intro r hr; cases hr⟩
    | cons a A ih =>
      intro B hA hB
      cases B with
      | nil => exact ⟨rfl, by intro r hr; cases hr⟩
      | cons b B =>
        obtain ⟨i1, i2⟩ := ih B (fun r hr => hA r (by simp [hr])) (fun r hr => hB r (by simp [hr]))
        have ha := hA a (by simp)
        have hb := hB b (by simp)
        refine ⟨?_, ?_⟩
        · simp only [List.map_cons, List.zipWith_cons_cons, i1]
          rw [vadd_reverse (ha.trans hb.symm)]
        · intro r hr
          rw [List.zipWith_cons_cons] at hr
          rcases List.mem_cons.1 hr with rfl | hr
          · exact length_vadd ha hb
          · exact i2 r hr
  obtain ⟨k1, k2⟩ := key (P.take I.length) I (fun r hr => hP r (List.mem_of_mem_take hr)) hI
  refine ⟨?_, ?_⟩
  · rw [List.map_append, List.map_drop, ← List.map_take, k1]
  · intro r hr
    rcases List.mem_append.1 hr with hr | hr
    · exact k2 r hr
    · exact hP r (List.mem_of_mem_drop hr)

theorem foldl_accumulate_rev (n : Nat) : ∀ (rs : List (List (List K))) (E : List (List K)), (∀ r ∈ E, r.length = n) → Lens n rs →
    (rs.map (List.map List.reverse)).foldl (accumulate n) (E.map List.reverse) = (rs.foldl (accumulate n) E).map List.reverse ∧
      ∀ r ∈ rs.foldl (accumulate n) E, r.length = n := by
  intro rs
  induction rs with
  | nil => intro E hE _; exact ⟨rfl, hE⟩
  | cons r rs ih =>
    intro E hE hl
    obtain ⟨h1, h2⟩ := accumulate_rev hE (hl r (by simp))
    rw [List.map_cons, List.foldl_cons, List.foldl_cons, h1]
    exact ih _ h2 (fun i hi => hl i (by simp [hi]))

/-- What the steps need: rows of `n` samples, and proto-modes without equal neighbours. -/
structure Clean (std : List K → K) (fuel : Nat) (sp : SciPy K) (cfg : Cfg K) (ecfg : EMD.Cfg K) (noise : List (List (List K))) (order : List Nat)
    (S : List K) (T : Option (List K)) (m : Int) : Prop where
  lens : Lens S.length noise
  free : ∀ x, Fed std fuel sp cfg ecfg noise order S T m x → Free sp ecfg x 1

section Steps
variable {std : List K → K} (hs : ∀ l, std l.reverse = std l) {fuel : Nat} {sp : SciPy K} {ecfg : EMD.Cfg K} (hE : EEMD.Sound fuel sp ecfg)
  {cfg : Cfg K} {noise : List (List (List K))} {order : List Nat} {S : List K} {T : Option (List K)} {m : Int}
  (hc : Clean std fuel sp cfg ecfg noise order S T m)
include hE hc

theorem trialUpdate_rev (T' : List K) (t : Nat) :
    trialUpdate fuel sp cfg ecfg (noise.map (List.map List.reverse)) S.reverse T' 1 t =
      (trialUpdate fuel sp cfg ecfg noise S T' 1 t).map (List.map List.reverse) := by
  unfold trialUpdate
  rw [List.getElem?_map]
  cases h : noise[t]? with
  | none => rfl
  | some imfs =>
    cases imfs with
    | nil => rfl
    | cons i imfs =>
      have hm : i :: imfs ∈ noise := List.mem_of_getElem? h
      show emd fuel sp ecfg (vadd S.reverse (vscale cfg.epsilon i.reverse)) (some T') 1 = _
      rw [vscale_rev, vadd_reverse (by rw [vscale, List.length_map, hc.lens _ hm i (by simp)])]
      exact emd_rev hE _ _ _ (hc.free _ (.trial hm))

theorem trialUpdate_len {T' : List K} {t : Nat} {out : List (List K)} (h : trialUpdate fuel sp cfg ecfg noise S T' 1 t = .ok out) :
    ∀ r ∈ out, r.length = S.length := by
  obtain ⟨imfs, i, h1, h2, h3⟩ := trialUpdate_ok h
  intro r hr
  rw [(emd_ok h3).2 r hr]
  have : i.length = S.length := hc.lens imfs (List.mem_of_getElem? h1) i (List.mem_of_mem_head? h2)
  exact length_vadd rfl (by rw [vscale, List.length_map, this])

theorem eemd_rev : eemd fuel sp cfg ecfg (noise.map (List.map List.reverse)) order S.reverse T 1 =
      (eemd fuel sp cfg ecfg noise order S T 1).map (List.map List.reverse) ∧
    ∀ out, eemd fuel sp cfg ecfg noise order S T 1 = .ok out → ∀ r ∈ out, r.length = S.length := by
  have key : ∀ (T' : List K) (ord : List Nat),
      (match mapE (trialUpdate fuel sp cfg ecfg (noise.map (List.map List.reverse)) S.reverse T' 1) ord with
        | .error e => (.error e : PyM (List (List K)))
        | .ok rs =>
          if cfg.trials = 0 then .error .nonFinite
          else .ok ((rs.foldl (accumulate S.length) [vzeros S.length]).map (fun r => vdiv r (lit (cfg.trials : ℚ))))) =
      Except.map (List.map List.reverse) (match mapE (trialUpdate fuel sp cfg ecfg noise S T' 1) ord with
        | .error e => (.error e : PyM (List (List K)))
        | .ok rs =>
          if cfg.trials = 0 then (.error .nonFinite : PyM (List (List K)))
          else .ok ((rs.foldl (accumulate S.length) [vzeros S.length]).map (fun r => vdiv r (lit (cfg.trials : ℚ))))) ∧
      ∀ out, (match mapE (trialUpdate fuel sp cfg ecfg noise S T' 1) ord with
        | .error e => (.error e : PyM (List (List K)))
        | .ok rs =>
          if cfg.trials = 0 then (.error .nonFinite : PyM (List (List K)))
          else .ok ((rs.foldl (accumulate S.length) [vzeros S.length]).map (fun r => vdiv r (lit (cfg.trials : ℚ))))) = .ok out →
        ∀ r ∈ out, r.length = S.length := by
    intro T' ord
    have h := mapE_map (f' := trialUpdate fuel sp cfg ecfg (noise.map (List.map List.reverse)) S.reverse T' 1) (h := id) ord
      (fun t _ => trialUpdate_rev hE hc T' t)
    rw [List.map_id] at h
    rw [h]
    cases hx : mapE (trialUpdate fuel sp cfg ecfg noise S T' 1) ord with
    | error e => exact ⟨rfl, by intro out h; cases h⟩
    | ok a =>
      have hl : Lens S.length a := by
        intro imfs hi
        obtain ⟨t, -, ht⟩ := mapE_mem hx hi
        exact trialUpdate_len hE hc ht
      obtain ⟨f1, f2⟩ := foldl_accumulate_rev S.length a [vzeros S.length] (by simp [vzeros]) hl
      have hz : ([(vzeros S.length : List K)]).map List.reverse = [vzeros S.length] := by simp [vzeros]
      rw [hz] at f1
      show (if cfg.trials = 0 then Except.error PyErr.nonFinite else Except.ok (((a.map (List.map List.reverse)).foldl (accumulate S.length)
        [vzeros S.length]).map (fun r => vdiv r (lit (cfg.trials : ℚ))))) = _ ∧ _
      rw [f1]
      by_cases ht : cfg.trials = 0
      · simp only [if_pos ht]
        exact ⟨rfl, by intro out h; cases h⟩
      · simp only [if_neg ht]
        refine ⟨?_, ?_⟩
        · show Except.ok _ = Except.ok _
          congr 1
          rw [List.map_map, List.map_map]
          apply List.map_congr_left
          intro r _
          exact vdiv_rev r _
        · intro out h r hr
          injection h with h
          subst h
          obtain ⟨r', hr', rfl⟩ := List.mem_map.1 hr
          rw [vdiv, List.length_map]
          exact f2 r' hr'
  unfold eemd
  rw [List.length_reverse]
  cases T with
  | none => exact key _ _
  | some T => exact key _ _

theorem endCondition_rev {c : List (List K)} {prev : List K} (hst : Stage std fuel sp cfg ecfg noise order S T m c prev)
    (hl : ∀ r ∈ c, r.length = S.length) :
    endCondition fuel sp cfg ecfg S.reverse (c.map List.reverse) m = endCondition fuel sp cfg ecfg S c m := by
  unfold endCondition
  rw [List.length_map, List.length_reverse]
  by_cases h1 : 0 < m ∧ m ≤ (c.length : Int)
  · rw [if_pos h1, if_pos h1]
  rw [if_neg h1, if_neg h1]
  rw [sumRows_reverse hl, vsub_reverse (length_sumRows _ _ hl).symm]
  have hf := hc.free _ (.test hst h1)
  revert hf
  generalize vsub S (sumRows S.length c) = R
  intro hf
  have h := emd_rev hE R none 1 hf
  dsimp only
  rw [h]
  cases emd fuel sp ecfg R none 1 with
  | error e => rfl
  | ok a =>
    show (if (a.map List.reverse).length = 1 then _ else _) = (if a.length = 1 then _ else _)
    rw [List.length_map]
    by_cases h2 : a.length = 1
    · rw [if_pos h2, if_pos h2]
    rw [if_neg h2, if_neg h2]
    by_cases he : R = []
    · subst he; rfl
    have he' : R.reverse ≠ [] := by simpa using he
    have h3 : npMaxE R.reverse = npMaxE R := by simp [npMaxE, he, npMax_reverse R he]
    have h4 : npMinE R.reverse = npMinE R := by simp [npMinE, he, npMin_reverse R he]
    have h5 : npSum (R.reverse.map pyAbs) = npSum (R.map pyAbs) := by rw [npSum_eq, npSum_eq, List.map_reverse, List.sum_reverse]
    rw [h3, h4, h5]

theorem stageTrial_rev {c : List (List K)} {prev : List K} (hst : Stage std fuel sp cfg ecfg noise order S T m c prev) (hl : prev.length = S.length)
    (hend : endCondition fuel sp cfg ecfg S c m = .ok false) {imfs : List (List K)} (hi : imfs ∈ noise) :
    stageTrial fuel sp ecfg prev.reverse T (cfg.epsilon * std prev) c.length (imfs.map List.reverse) =
      (stageTrial fuel sp ecfg prev T (cfg.epsilon * std prev) c.length imfs).map List.reverse ∧
    ∀ out, stageTrial fuel sp ecfg prev T (cfg.epsilon * std prev) c.length imfs = .ok out → out.length = S.length := by
  have key : ∀ res : List K, res.length = S.length → Free sp ecfg res 1 →
      (match emd fuel sp ecfg res.reverse T 1 with
        | .error e => (.error e : PyM (List K))
        | .ok imfs =>
          match imfs.getLast? with
          | none => .error .indexError
          | some r => .ok r) =
      Except.map List.reverse (match emd fuel sp ecfg res T 1 with
        | .error e => (.error e : PyM (List K))
        | .ok imfs =>
          match imfs.getLast? with
          | none => (.error .indexError : PyM (List K))
          | some r => .ok r) ∧
      ∀ out, (match emd fuel sp ecfg res T 1 with
        | .error e => (.error e : PyM (List K))
        | .ok imfs =>
          match imfs.getLast? with
          | none => (.error .indexError : PyM (List K))
          | some r => .ok r) = .ok out → out.length = S.length := by
    intro res hl hf
    rw [emd_rev hE res T 1 hf]
    cases hx : emd fuel sp ecfg res T 1 with
    | error e => exact ⟨rfl, by intro out h; cases h⟩
    | ok a =>
      refine ⟨?_, ?_⟩
      · show (match (a.map List.reverse).getLast? with | none => _ | some r => _) = _
        rw [List.getLast?_map]
        cases h : a.getLast? with
        | none => simp only [h]; rfl
        | some r => simp only [h]; rfl
      · intro out h
        dsimp only at h
        cases h6 : a.getLast? with
        | none => rw [h6] at h; cases h
        | some r =>
          rw [h6] at h
          injection h with h
          subst h
          rw [(emd_ok hx).2 r (List.mem_of_getLast? h6), hl]
  unfold stageTrial
  rw [List.getElem?_map]
  cases hk : imfs[c.length]? with
  | none => exact key prev hl (hc.free _ (.bare hst hend hi hk))
  | some x =>
    have hx : x.length = S.length := hc.lens imfs hi x (List.mem_of_getElem? hk)
    have hx' : (vscale (cfg.epsilon * std prev) x).length = S.length := by rw [vscale, List.length_map, hx]
    have := key (vadd prev (vscale (cfg.epsilon * std prev) x)) (length_vadd hl hx') (hc.free _ (.stage hst hend hi hk))
    rw [← vadd_reverse (hl.trans hx'.symm), ← vscale_rev] at this
    exact this

include hs

theorem localMean_rev {c : List (List K)} {prev : List K} (hst : Stage std fuel sp cfg ecfg noise order S T m c prev) (hl : prev.length = S.length)
    (hend : endCondition fuel sp cfg ecfg S c m = .ok false) :
    localMean std fuel sp cfg ecfg (noise.map (List.map List.reverse)) prev.reverse T c.length =
      (localMean std fuel sp cfg ecfg noise prev T c.length).map List.reverse ∧
    ∀ out, localMean std fuel sp cfg ecfg noise prev T c.length = .ok out → out.length = S.length := by
  unfold localMean
  rw [hs, List.length_reverse, ← List.map_take]
  dsimp only
  have ht : ∀ imfs ∈ noise.take cfg.trials, imfs ∈ noise := fun _ h => List.mem_of_mem_take h
  have h := mapE_map (f' := stageTrial fuel sp ecfg prev.reverse T (cfg.epsilon * std prev) c.length) (noise.take cfg.trials)
    (fun imfs hi => (stageTrial_rev hE hc hst hl hend (ht imfs hi)).1)
  rw [h]
  cases hx : mapE (stageTrial fuel sp ecfg prev T (cfg.epsilon * std prev) c.length) (noise.take cfg.trials) with
  | error e => exact ⟨rfl, by intro out h; cases h⟩
  | ok a =>
    have hla : ∀ r ∈ a, r.length = S.length := by
      intro r hr
      obtain ⟨imfs, hi, h⟩ := mapE_mem hx hr
      exact (stageTrial_rev hE hc hst hl hend (ht imfs hi)).2 r h
    have hlb : ∀ r ∈ a.map (fun r => vdiv r (lit (cfg.trials : ℚ))), r.length = prev.length := by
      intro r hr
      obtain ⟨r', hr', rfl⟩ := List.mem_map.1 hr
      rw [vdiv, List.length_map, hla r' hr', hl]
    refine ⟨?_, ?_⟩
    · show Except.ok _ = Except.ok _
      congr 1
      rw [← sumRows_reverse hlb, List.map_map, List.map_map]
      congr 1
      apply List.map_congr_left
      intro r _
      exact vdiv_rev r _
    · intro out h
      injection h with h
      rw [← h, length_sumRows _ _ hlb, hl]

theorem stages_rev : ∀ (n : Nat) (c : List (List K)) (prev : List K), Stage std fuel sp cfg ecfg noise order S T m c prev →
    (∀ r ∈ c, r.length = S.length) → prev.length = S.length →
    stages std fuel sp cfg ecfg (noise.map (List.map List.reverse)) S.reverse T m n (c.map List.reverse) prev.reverse =
      (stages std fuel sp cfg ecfg noise S T m n c prev).map (List.map List.reverse) ∧
    ∀ out, stages std fuel sp cfg ecfg noise S T m n c prev = .ok out → ∀ r ∈ out, r.length = S.length := by
  intro n
  induction n with
  | zero =>
    intro c prev _ hl _
    refine ⟨rfl, ?_⟩
    intro out h
    injection h with h
    rw [← h]
    exact hl
  | succ n ih =>
    intro c prev hst hl hp
    rw [stages, stages, endCondition_rev hE hc hst hl]
    cases hend : endCondition fuel sp cfg ecfg S c m with
    | error e => exact ⟨rfl, by intro out h; cases h⟩
    | ok b =>
      cases b with
      | true =>
        refine ⟨rfl, ?_⟩
        intro out h
        injection h with h
        rw [← h]
        exact hl
      | false =>
        dsimp only
        obtain ⟨h1, h2⟩ := localMean_rev hs hE hc hst hp hend
        rw [List.length_map, h1]
        cases hx : localMean std fuel sp cfg ecfg noise prev T c.length with
        | error e => exact ⟨rfl, by intro out h; cases h⟩
        | ok a =>
          have ha := h2 a hx
          have hl' : ∀ r ∈ c ++ [vsub prev a], r.length = S.length := by
            intro r hr
            rcases List.mem_append.1 hr with hr | hr
            · exact hl r hr
            · rw [List.mem_singleton.1 hr]; exact length_vsub hp ha
          have := ih (c ++ [vsub prev a]) a (.next hst hend hx) hl' ha
          rw [List.map_append, List.map_cons, List.map_nil, ← vsub_reverse (hp.trans ha.symm)] at this
          exact this

theorem body_rev : body std fuel sp cfg ecfg (noise.map (List.map List.reverse)) order S.reverse T m =
      (body std fuel sp cfg ecfg noise order S T m).map (List.map List.reverse) ∧
    ∀ out, body std fuel sp cfg ecfg noise order S T m = .ok out → ∀ r ∈ out, r.length = S.length := by
  obtain ⟨h1, h2⟩ := eemd_rev hE hc
  unfold body
  rw [h1]
  cases hx : eemd fuel sp cfg ecfg noise order S T 1 with
  | error e => exact ⟨rfl, by intro out h; cases h⟩
  | ok a =>
    cases a with
    | nil => exact ⟨rfl, by intro out h; cases h⟩
    | cons first rest =>
      have hf : first.length = S.length := h2 _ hx first (by simp)
      obtain ⟨g1, g2⟩ := stages_rev hs hE hc cfg.maxStages [first] (vsub S first) (.first hx) (by simpa using hf) (length_vsub rfl hf)
      rw [List.map_cons, List.map_nil, ← vsub_reverse hf.symm] at g1
      show (match stages std fuel sp cfg ecfg (noise.map (List.map List.reverse)) S.reverse T m cfg.maxStages [first.reverse]
        (vsub S.reverse first.reverse) with | .error e => _ | .ok cimfs => _) = _ ∧ _
      rw [g1]
      dsimp only
      cases hy : stages std fuel sp cfg ecfg noise S T m cfg.maxStages [first] (vsub S first) with
      | error e => exact ⟨rfl, by intro out h; cases h⟩
      | ok c =>
        have hl := g2 c hy
        refine ⟨?_, ?_⟩
        · show Except.ok _ = Except.ok _
          rw [List.length_reverse, sumRows_reverse hl, vsub_reverse (length_sumRows _ _ hl).symm, List.map_append]
          rfl
        · intro out h r hr
          injection h with h
          subst h
          rcases List.mem_append.1 hr with hr | hr
          · exact hl r hr
          · rw [List.mem_singleton.1 hr]; exact length_vsub rfl (length_sumRows _ _ hl)

end Steps

/-- **C164** (partial): `CEEMDAN` does not prefer a direction of time.  With each row of noise run backwards, the signal run backwards gives the rows and the
residue run backwards, leaves the generator in the same state, and raises exactly the same exceptions: sequentially or in parallel, for any schedule, number of
trials and kind of noise.  The hypothesis that no proto-mode has two equal neighbouring samples cannot be dropped (`C164_counterexample`). -/
theorem C164_reversal_partial (rng rng' : Rng K ρ) (S : List K) (hr : RowsBackwards rng rng' S.length) (hz : Sized rng) (hz' : Sized rng')
    (std : List K → K) (hs : ∀ l, std l.reverse = std l) (fuel : Nat) (sp : SciPy K) (hsp : ReversibleAll sp) (orderN orderT : List Nat) (o : Obj K ρ)
    (hd : o.emd.detection = .simple) (hnb : 1 ≤ o.emd.nbsym) (T : Option (List K)) (m : Int)
    (hn : ∀ x r, noises rng o.cfg o.random S.length = (.ok x, r) → ∀ w ∈ x, Free sp o.emd w (-1))
    (hu : ∀ x r noise, noises rng o.cfg o.random S.length = (.ok x, r) → decomposeNoise std fuel sp o.cfg o.emd orderN x = .ok noise →
      ∀ w, Fed std fuel sp o.cfg o.emd noise orderT (S.map (fun s => s / std S)) T m w → Free sp o.emd w 1) :
    (∃ C o₁ o₂, o.ceemdan rng std fuel sp orderN orderT S T m = (.ok C, o₁) ∧
      o.ceemdan rng' std fuel sp orderN orderT S.reverse T m = (.ok (C.map List.reverse), o₂) ∧
      o₂.random = o₁.random ∧ o₂.C_IMF = o₁.C_IMF.map (List.map List.reverse) ∧ o₂.residue = o₁.residue.map List.reverse) ∨
    (∃ e o₁ o₂, o.ceemdan rng std fuel sp orderN orderT S T m = (.error e, o₁) ∧
      o.ceemdan rng' std fuel sp orderN orderT S.reverse T m = (.error e, o₂) ∧ o₂.random = o₁.random) := by
  have hE : EEMD.Sound fuel sp o.emd := ⟨hsp, hd, hnb⟩
  have hlen : (vdiv S (std S)).length = S.length := by simp [vdiv]
  have hlen' : (vdiv S (std S)).reverse.length = S.length := by simp [vdiv]
  unfold Obj.ceemdan
  rw [hs]
  dsimp only
  by_cases h0 : (std S == lit 0) = true
  · rw [if_pos h0, if_pos h0]
    exact .inr ⟨_, _, _, rfl, rfl, rfl⟩
  rw [if_neg h0, if_neg h0, vdiv_rev, hlen, hlen', noises_rev hr hz hz']
  cases hx : noises rng o.cfg o.random S.length with
  | mk x r =>
    cases x with
    | error e => exact .inr ⟨_, _, _, rfl, rfl, rfl⟩
    | ok x =>
      dsimp only [Except.map]
      have hxl : ∀ w ∈ x, w.length = S.length := by
        obtain ⟨flat, hdr, rfl⟩ := noises_ok hx
        exact reshape_rows _ _ _ (draw_length hz hdr)
      obtain ⟨d1, d2⟩ := decomposeNoise_rev hs hE o.cfg orderN x hxl (hn x r hx)
      rw [d1]
      cases hy : decomposeNoise std fuel sp o.cfg o.emd orderN x with
      | error e => exact .inr ⟨_, _, _, rfl, rfl, rfl⟩
      | ok noise =>
        dsimp only [Except.map]
        have hc : Clean std fuel sp o.cfg o.emd noise orderT (vdiv S (std S)) T m := ⟨by rw [hlen]; exact d2 _ hy, hu x r noise hx hy⟩
        obtain ⟨b1, b2⟩ := body_rev hs hE hc
        rw [b1]
        cases hw : body std fuel sp o.cfg o.emd noise orderT (vdiv S (std S)) T m with
        | error e => exact .inr ⟨_, _, _, rfl, rfl, rfl⟩
        | ok c =>
          have hl := b2 c hw
          have hC : (c.map List.reverse).map (vscale (std S)) = (c.map (vscale (std S))).map List.reverse := by
            rw [List.map_map, List.map_map]
            apply List.map_congr_left
            intro r _
            exact vscale_rev _ r
          have hlC : ∀ r ∈ c.map (vscale (std S)), r.length = S.length := by
            intro r hr
            obtain ⟨r', hr', rfl⟩ := List.mem_map.1 hr
            rw [vscale, List.length_map, hl r' hr', hlen]
          refine .inl ⟨_, _, _, rfl, Prod.ext_iff.2 ⟨?_, rfl⟩, ?_, ?_, ?_⟩
          · exact congrArg Except.ok hC
          · rfl
          · exact congrArg some hC
          · dsimp only [Option.map, Except.map]
            rw [hC, vscale_rev, sumRows_reverse hlC, vsub_reverse (by rw [length_sumRows _ _ hlC, vscale, List.length_map, hlen])]

/-! Cases: a concrete run of three trials, sequentially and in parallel; the hypothesis is decided by following the run. -/

/-- The generator that draws rows of `n` samples backwards. -/
def rowwise (rng : Rng ℚ ρ) (n : Nat) : Rng ℚ ρ where
  normal r s k := ((List.range k).map (fun q => (rng.normal r s k).1.getD (q / n * n + (n - 1 - q % n)) 0), (rng.normal r s k).2)
  uniform r a b k := ((List.range k).map (fun q => (rng.uniform r a b k).1.getD (q / n * n + (n - 1 - q % n)) 0), (rng.uniform r a b k).2)
  seed := rng.seed

theorem rowwise_sized (rng : Rng ℚ ρ) (n : Nat) : Sized (rowwise rng n) := ⟨by simp [rowwise], by simp [rowwise]⟩

theorem rowwise_get {n t : Nat} {l : List ℚ} (hl : l.length = t * n) {i j : Nat} (hi : i < t) (hj : j < n) :
    ((List.range (t * n)).map (fun q => l.getD (q / n * n + (n - 1 - q % n)) 0))[i * n + j]? = l[i * n + (n - 1 - j)]? := by
  have hb : i * n + n ≤ t * n := by
    rw [← Nat.succ_mul]
    exact Nat.mul_le_mul_right _ hi
  have e1 : (i * n + j) / n = i := by
    rw [Nat.mul_comm, Nat.mul_add_div (by omega), Nat.div_eq_of_lt hj, Nat.add_zero]
  have e2 : (i * n + j) % n = j := by
    rw [Nat.mul_comm, Nat.mul_add_mod, Nat.mod_eq_of_lt hj]
  rw [List.getElem?_map, List.getElem?_range (by omega), Option.map_some, e1, e2, List.getD_eq_getElem?_getD,
    List.getElem?_eq_getElem (by omega), Option.getD_some]

theorem rowwise_backwards {rng : Rng ℚ ρ} (hz : Sized rng) (n : Nat) : RowsBackwards rng (rowwise rng n) n :=
  ⟨fun r s t => ⟨rfl, fun _ hi _ hj => rowwise_get (hz.1 r s (t * n)) hi hj⟩,
   fun r a b t => ⟨rfl, fun _ hi _ hj => rowwise_get (hz.2 r a b (t * n)) hi hj⟩⟩

/-- Decides `Free` for a decomposition that ends within 20 rounds. -/
def freeB (sp : SciPy ℚ) (cfg : EMD.Cfg ℚ) (x : List ℚ) (m : Int) : Bool :=
  EMD.runFree sp cfg ((List.range x.length).map (fun k : Nat => (k : ℚ))) x m 20 [] (-1)

theorem freeB_sound {sp : SciPy ℚ} {cfg : EMD.Cfg ℚ} {x : List ℚ} {m : Int} (h : freeB sp cfg x m = true) : Free sp cfg x m :=
  fun _ hy => EMD.runFree_sound hy 20 h

section Decide
variable (std : List ℚ → ℚ) (fuel : Nat) (sp : SciPy ℚ) (cfg : Cfg ℚ) (ecfg : EMD.Cfg ℚ) (noise : List (List (List ℚ))) (order : List Nat)
  (S : List ℚ) (T : Option (List ℚ)) (m : Int)

/-- Follows the stages. -/
def stagesB : Nat → List (List ℚ) → List ℚ → Bool
  | 0, _, _ => false
  | n + 1, c, prev =>
    (decide (0 < m ∧ m ≤ (c.length : Int)) || freeB sp ecfg (vsub S (sumRows S.length c)) 1) &&
    match endCondition fuel sp cfg ecfg S c m with
    | .ok false =>
      noise.all (fun imfs => match imfs[c.length]? with
        | some x => freeB sp ecfg (vadd prev (vscale (cfg.epsilon * std prev) x)) 1
        | none => freeB sp ecfg prev 1) &&
      match localMean std fuel sp cfg ecfg noise prev T c.length with
      | .ok mean => stagesB n (c ++ [vsub prev mean]) mean
      | .error _ => true
    | _ => true

/-- Follows the run after the decomposition of the noise. -/
def fedB : Bool :=
  noise.all (fun imfs => match imfs with
    | [] => true
    | i :: _ => freeB sp ecfg (vadd S (vscale cfg.epsilon i)) 1) &&
  match eemd fuel sp cfg ecfg noise order S T 1 with
  | .ok (first :: _) => stagesB std fuel sp cfg ecfg noise S T m 20 [first] (vsub S first)
  | _ => true

variable {std fuel sp cfg ecfg noise order S T m}

theorem stagesB_sound (h : fedB std fuel sp cfg ecfg noise order S T m = true) {c : List (List ℚ)} {prev : List ℚ}
    (hst : Stage std fuel sp cfg ecfg noise order S T m c prev) : ∃ n, stagesB std fuel sp cfg ecfg noise S T m (n + 1) c prev = true := by
  induction hst with
  | first h1 =>
    simp only [fedB, h1, Bool.and_eq_true] at h
    exact ⟨19, h.2⟩
  | next _ h1 h2 ih =>
    obtain ⟨n, ih⟩ := ih
    rw [stagesB] at ih
    simp only [h1, h2, Bool.and_eq_true] at ih
    have := ih.2.2
    cases n with
    | zero => exact absurd this (by simp [stagesB])
    | succ n => exact ⟨n, this⟩

theorem fedB_sound (h : fedB std fuel sp cfg ecfg noise order S T m = true) {w : List ℚ} (hw : Fed std fuel sp cfg ecfg noise order S T m w) :
    Free sp ecfg w 1 := by
  cases hw with
  | trial hi =>
    simp only [fedB, Bool.and_eq_true, List.all_eq_true] at h
    exact freeB_sound (h.1 _ hi)
  | test hst h1 =>
    obtain ⟨n, hn⟩ := stagesB_sound h hst
    rw [stagesB] at hn
    simp only [Bool.and_eq_true, Bool.or_eq_true, decide_eq_true_eq] at hn
    exact freeB_sound (hn.1.resolve_left h1)
  | stage hst h1 hi hk =>
    obtain ⟨n, hn⟩ := stagesB_sound h hst
    rw [stagesB] at hn
    simp only [h1, Bool.and_eq_true, List.all_eq_true] at hn
    have := hn.2.1 _ hi
    rw [hk] at this
    exact freeB_sound this
  | bare hst h1 hi hk =>
    obtain ⟨n, hn⟩ := stagesB_sound h hst
    rw [stagesB] at hn
    simp only [h1, Bool.and_eq_true, List.all_eq_true] at hn
    have := hn.2.1 _ hi
    rw [hk] at this
    exact freeB_sound this

end Decide

/-- Decides the hypotheses of `C164_reversal_partial` for a concrete run. -/
def freeRun (rng : Rng ℚ ρ) (std : List ℚ → ℚ) (fuel : Nat) (sp : SciPy ℚ) (orderN orderT : List Nat) (o : Obj ℚ ρ) (S : List ℚ) (T : Option (List ℚ))
    (m : Int) : Bool :=
  match (noises rng o.cfg o.random S.length).1 with
  | .error _ => true
  | .ok x => x.all (fun w => freeB sp o.emd w (-1)) &&
    match decomposeNoise std fuel sp o.cfg o.emd orderN x with
    | .error _ => true
    | .ok noise => fedB std fuel sp o.cfg o.emd noise orderT (S.map (fun s => s / std S)) T m

theorem freeRun_sound {rng : Rng ℚ ρ} {std : List ℚ → ℚ} {fuel : Nat} {sp : SciPy ℚ} {orderN orderT : List Nat} {o : Obj ℚ ρ} {S : List ℚ}
    {T : Option (List ℚ)} {m : Int} (h : freeRun rng std fuel sp orderN orderT o S T m = true) :
    (∀ x r, noises rng o.cfg o.random S.length = (.ok x, r) → ∀ w ∈ x, Free sp o.emd w (-1)) ∧
    (∀ x r noise, noises rng o.cfg o.random S.length = (.ok x, r) → decomposeNoise std fuel sp o.cfg o.emd orderN x = .ok noise →
      ∀ w, Fed std fuel sp o.cfg o.emd noise orderT (S.map (fun s => s / std S)) T m w → Free sp o.emd w 1) := by
  refine ⟨?_, ?_⟩
  · intro x r hx w hw
    simp only [freeRun, hx, Bool.and_eq_true, List.all_eq_true] at h
    exact freeB_sound (h.1 w hw)
  · intro x r noise hx hn w hw
    simp only [freeRun, hx, hn, Bool.and_eq_true, List.all_eq_true] at h
    exact fedB_sound h.2 hw

theorem sampleStd_rev (l : List ℚ) : sampleStd l.reverse = sampleStd l := by
  by_cases h : l = []
  · subst h; rfl
  · rw [sampleStd, sampleStd, npMax_reverse l h, npMin_reverse l h]

/-- A generator whose noise has no equal neighbours. -/
def tieFreeRng : Rng ℚ Nat where
  normal r s n := ((List.range n).map (fun i => s * ((((r + i) * (r + i) + 4 * (r + i)) % 19 : Nat) - 9)), r + n)
  uniform r a b n := ((List.range n).map (fun i => a + (b - a) * (((r + i) * (r + i) + 4 * (r + i)) % 19 : Nat) / 19), r + n)
  seed s := s.toNat

theorem tieFreeRng_sized : Sized tieFreeRng := ⟨by simp [tieFreeRng], by simp [tieFreeRng]⟩

/-- A signal of seven samples. -/
def tieFreeS : List ℚ := [0, 3, -1, 2, -2, 4, 1]

theorem tieFree_run : freeRun tieFreeRng sampleStd 20 EMD.Spec.strictLinSciPy [] [] (sampleObj sampleCfg) tieFreeS none (-1) = true := by decide +kernel

/-- Three trials with noise. -/
example := C164_reversal_partial tieFreeRng (rowwise tieFreeRng tieFreeS.length) tieFreeS (rowwise_backwards tieFreeRng_sized _) tieFreeRng_sized
  (rowwise_sized _ _) sampleStd sampleStd_rev 20 EMD.Spec.strictLinSciPy EMD.strictLinSciPy_reversible [] [] (sampleObj sampleCfg) rfl (by decide) none (-1)
  (freeRun_sound tieFree_run).1 (freeRun_sound tieFree_run).2

example : okWith (fun C : List (List ℚ) => C.length == 3)
    ((sampleObj sampleCfg).ceemdan tieFreeRng sampleStd 20 EMD.Spec.strictLinSciPy [] [] tieFreeS none (-1)).1 = true := by decide +kernel

theorem tieFree_run_parallel : freeRun tieFreeRng sampleStd 20 EMD.Spec.strictLinSciPy [1, 0] [2, 0, 1]
    (sampleObj { sampleCfg with parallel := true, processes := 2, noiseKind := .uniform }) tieFreeS none (-1) = true := by decide +kernel

/-- In parallel with uniform noise. -/
example := C164_reversal_partial tieFreeRng (rowwise tieFreeRng tieFreeS.length) tieFreeS (rowwise_backwards tieFreeRng_sized _) tieFreeRng_sized
  (rowwise_sized _ _) sampleStd sampleStd_rev 20 EMD.Spec.strictLinSciPy EMD.strictLinSciPy_reversible [1, 0] [2, 0, 1]
  (sampleObj { sampleCfg with parallel := true, processes := 2, noiseKind := .uniform }) rfl (by decide) none (-1)
  (freeRun_sound tieFree_run_parallel).1 (freeRun_sound tieFree_run_parallel).2

/-- With the same noise, not run backwards, the rows are not the rows run backwards. -/
theorem C164_same_noise : freeRun tieFreeRng sampleStd 20 EMD.Spec.strictLinSciPy [] [] (sampleObj sampleCfg) tieFreeS none (-1) = true ∧
    ∃ C C', ((sampleObj sampleCfg).ceemdan tieFreeRng sampleStd 20 EMD.Spec.strictLinSciPy [] [] tieFreeS none (-1)).1 = .ok C ∧
      ((sampleObj sampleCfg).ceemdan tieFreeRng sampleStd 20 EMD.Spec.strictLinSciPy [] [] tieFreeS.reverse none (-1)).1 = .ok C' ∧
      C' ≠ C.map List.reverse := by
  have h : okWith (fun C => okWith (fun C' => C' != C.map List.reverse)
      ((sampleObj sampleCfg).ceemdan tieFreeRng sampleStd 20 EMD.Spec.strictLinSciPy [] [] tieFreeS.reverse none (-1)).1)
    ((sampleObj sampleCfg).ceemdan tieFreeRng sampleStd 20 EMD.Spec.strictLinSciPy [] [] tieFreeS none (-1)).1 = true := by decide +kernel
  obtain ⟨C, hC, h⟩ := okWith_iff.1 h
  obtain ⟨C', hC', h⟩ := okWith_iff.1 h
  exact ⟨tieFree_run, C, C', hC, hC', by simpa using h⟩

/-- C164 is false for runs with plateaus. -/
theorem C164_counterexample : ∃ (S : List ℚ) (o : Obj ℚ Nat) (C C' : List (List ℚ)), ReversibleAll (EMD.Spec.strictLinSciPy : SciPy ℚ) ∧
    RowsBackwards EEMD.sampleRng (rowwise EEMD.sampleRng S.length) S.length ∧ Sized EEMD.sampleRng ∧ (∀ l, sampleStd l.reverse = sampleStd l) ∧
    o.emd.detection = .simple ∧ 1 ≤ o.emd.nbsym ∧
    (o.ceemdan EEMD.sampleRng sampleStd 20 EMD.Spec.strictLinSciPy [] [] S none (-1)).1 = .ok C ∧
    (o.ceemdan (rowwise EEMD.sampleRng S.length) sampleStd 20 EMD.Spec.strictLinSciPy [] [] S.reverse none (-1)).1 = .ok C' ∧
    C' ≠ C.map List.reverse := by
  have h : okWith (fun C => okWith (fun C' => C' != C.map List.reverse)
      ((sampleObj sampleCfg).ceemdan (rowwise EEMD.sampleRng ([0, 3, -1, 2, 2, -2, 5, 1] : List ℚ).length) sampleStd 20 EMD.Spec.strictLinSciPy [] []
        ([0, 3, -1, 2, 2, -2, 5, 1] : List ℚ).reverse none (-1)).1)
    ((sampleObj sampleCfg).ceemdan EEMD.sampleRng sampleStd 20 EMD.Spec.strictLinSciPy [] [] [0, 3, -1, 2, 2, -2, 5, 1] none (-1)).1 = true := by
    decide +kernel
  obtain ⟨C, hC, h⟩ := okWith_iff.1 h
  obtain ⟨C', hC', h⟩ := okWith_iff.1 h
  exact ⟨_, _, C, C', EMD.strictLinSciPy_reversible, rowwise_backwards EEMD.sampleRng_sized _, EEMD.sampleRng_sized, sampleStd_rev, rfl, by decide, hC, hC',
    by simpa using h⟩

end CEEMDAN
end PyEMD
