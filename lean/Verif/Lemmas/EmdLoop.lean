import Verif.Lemmas.NoFuel
import Verif.Spec.Emd

/-!
# The loops of `EMD.emd`: inversion, invariants, fuel
-/

set_option linter.unusedSectionVars false

namespace PyEMD

variable {α : Type} [Add α] [Sub α] [Mul α] [Div α] [Neg α] [LT α] [LE α] [BEq α]
  [DecidableLT α] [DecidableLE α] [NpScalar α]

@[simp] theorem length_vsub (a b : List α) : (vsub a b).length = min a.length b.length := by simp [vsub]
@[simp] theorem length_vadd (a b : List α) : (vadd a b).length = min a.length b.length := by simp [vadd]
@[simp] theorem length_vzeros (n : Nat) : (vzeros n : List α).length = n := by simp [vzeros]

theorem length_foldl_vadd (n : Nat) (rows : List (List α)) (acc : List α) (h : ∀ r ∈ rows, r.length = n)
    (ha : acc.length = n) : (rows.foldl vadd acc).length = n := by
  induction rows generalizing acc with
  | nil => simpa using ha
  | cons r rows ih =>
    simp only [List.foldl_cons]
    apply ih
    · exact fun r' hr' => h r' (by simp [hr'])
    · simp [ha, h r (by simp)]

theorem length_sumRows (n : Nat) (rows : List (List α)) (h : ∀ r ∈ rows, r.length = n) :
    (sumRows n rows).length = n := length_foldl_vadd n rows _ h (by simp)

theorem foldl_vadd_getElem? (n : Nat) (rows : List (List α)) (acc : List α) (h : ∀ r ∈ rows, r.length = n)
    (ha : acc.length = n) (i : Nat) (hi : i < n) :
    (rows.foldl vadd acc)[i]? = some ((rows.map (fun r => r.getD i (lit 0))).foldl (· + ·) (acc.getD i (lit 0))) := by
  induction rows generalizing acc with
  | nil => simp [List.getElem?_eq_getElem (ha ▸ hi : i < acc.length)]
  | cons r rows ih =>
    have hr : r.length = n := h r (by simp)
    simp only [List.foldl_cons, List.map_cons]
    rw [ih _ (fun r' hr' => h r' (by simp [hr'])) (by simp [ha, hr])]
    congr 2
    have h1 : i < acc.length := ha ▸ hi
    have h2 : i < r.length := hr ▸ hi
    simp [vadd, h1, h2]

theorem sumRows_getElem? (n : Nat) (rows : List (List α)) (h : ∀ r ∈ rows, r.length = n) (i : Nat) (hi : i < n) :
    (sumRows n rows)[i]? = some (EMD.Spec.colSum rows i) := by
  rw [sumRows, foldl_vadd_getElem? n rows _ h (by simp) i hi]
  simp [EMD.Spec.colSum, vzeros, hi]

theorem vsub_getElem? (a b : List α) (i : Nat) (x y : α) (hx : a[i]? = some x) (hy : b[i]? = some y) :
    (vsub a b)[i]? = some (x - y) := by
  simp [vsub, List.getElem?_zipWith, hx, hy]

namespace EMD
open Spec

theorem isResidue_vsub (S : List α) (rows : List (List α)) (h : ∀ r ∈ rows, r.length = S.length) :
    IsResidue S rows (vsub S (sumRows S.length rows)) := by
  refine ⟨by simp [length_sumRows _ _ h], fun i hi => ⟨S[i], by simp [hi], ?_⟩⟩
  exact vsub_getElem? _ _ _ _ _ (by simp [hi]) (sumRows_getElem? _ _ h i hi)

theorem assignAll_length {n : Nat} {src m : List α} (h : assignAll n src = .ok m) : m.length = n := by
  unfold assignAll at h
  split at h
  · simp at h; subst h; assumption
  · split at h
    · simp at h; subst h; simp
    · simp at h

theorem assignAll_bget {n : Nat} {src m : List α} (h : assignAll n src = .ok m) (i : Nat) (hi : i < n) :
    ∃ v, m[i]? = some v ∧ bget src i = some v := by
  unfold assignAll at h
  split at h
  next hl =>
    simp at h; subst h
    refine ⟨src[i], by simp [hl, hi], ?_⟩
    unfold bget
    split
    next h1 => 
      have : i = 0 := by omega
      subst this
      simp [hl, hi]
    · simp [hl, hi]
  next hl =>
    split at h
    next x =>
      simp at h; subst h
      exact ⟨x, by simp [hi], by simp [bget]⟩
    · simp at h

theorem bcast_bget {f : α → α → α} {a b m : List α} (h : bcast f a b = .ok m) (i : Nat) (v : α)
    (hv : bget m i = some v) :
    ∃ x y, bget a i = some x ∧ bget b i = some y ∧ v = f x y := by
  unfold bcast at h
  split at h
  next hl =>
    simp at h; subst h
    unfold bget at hv ⊢
    simp only [List.length_zipWith, ← hl, Nat.min_self] at hv ⊢
    split at hv
    next h1 =>
      simp only [List.getElem?_zipWith, if_pos h1] at hv ⊢
      split at hv
      next hx hy => exact ⟨_, _, hx, hy, by simpa using hv.symm⟩
      · simp at hv
    next h1 =>
      simp only [List.getElem?_zipWith, if_neg h1] at hv ⊢
      split at hv
      next hx hy => exact ⟨_, _, hx, hy, by simpa using hv.symm⟩
      · simp at hv
  next hl =>
    split at h
    next _ x =>
      simp at h; subst h
      unfold bget at hv ⊢
      simp at hl
      rw [if_neg (by simp; omega)] at hv
      rw [List.getElem?_map, Option.map_eq_some_iff] at hv
      obtain ⟨y, hy, rfl⟩ := hv
      exact ⟨x, y, by simp, by simp [Ne.symm hl, hy], rfl⟩
    next y _ =>
      simp at h; subst h
      unfold bget at hv ⊢
      simp at hl
      rw [if_neg (by simp; omega)] at hv
      rw [List.getElem?_map, Option.map_eq_some_iff] at hv
      obtain ⟨x, hx, rfl⟩ := hv
      exact ⟨x, y, by simp [hl, hx], by simp, rfl⟩
    · simp at h

theorem bget_map (g : α → α) (l : List α) (i : Nat) (v : α) (h : bget (l.map g) i = some v) :
    ∃ w, bget l i = some w ∧ v = g w := by
  unfold bget at h ⊢
  simp only [List.length_map, List.getElem?_map] at h
  split at h
  next h1 =>
    rw [Option.map_eq_some_iff] at h
    obtain ⟨w, hw, rfl⟩ := h
    exact ⟨w, by simpa [h1] using hw, rfl⟩
  next h1 =>
    rw [Option.map_eq_some_iff] at h
    obtain ⟨w, hw, rfl⟩ := h
    exact ⟨w, by simpa [h1] using hw, rfl⟩

theorem siftOnce_spec {sp : SciPy α} {cfg : Cfg α} {T x y : List α} {eMax eMin : List (α × α)}
    (h : siftOnce sp cfg T x = .ok (y, eMax, eMin)) : SubtractsMean sp cfg T x y := by
  unfold siftOnce at h
  rw [bind_eq_ok] at h
  obtain ⟨e, he, h⟩ := h
  cases e with
  | none => simp at h
  | some env =>
    simp only [bind_eq_ok, pure_eq_ok, Prod.mk.injEq] at h
    obtain ⟨s, hs, m, hm, rfl, rfl, rfl⟩ := h
    have hml := assignAll_length hm
    refine ⟨env, he, by simp [hml], fun i hi => ?_⟩
    obtain ⟨v, hv, hb⟩ := assignAll_bget hm i hi
    obtain ⟨w, hw, rfl⟩ := bget_map _ _ _ _ hb
    obtain ⟨u, l, hu, hl, rfl⟩ := bcast_bget hs i w hw
    exact ⟨x[i], u, l, by simp [hi], hu, hl, vsub_getElem? _ _ _ _ _ (by simp [hi]) hv⟩

/-- The knots handed to `check_imf` are those of the proto-IMF before the subtraction. -/
theorem siftOnce_knots {sp : SciPy α} {cfg : Cfg α} {T x y : List α} {eMax eMin : List (α × α)}
    (h : siftOnce sp cfg T x = .ok (y, eMax, eMin)) :
    ∃ e, findExtrema cfg.detection T x = .ok e ∧ preparePoints cfg.detection cfg.nbsym T x e = .ok (eMax, eMin) := by
  unfold siftOnce at h
  rw [bind_eq_ok] at h
  obtain ⟨e, he, h⟩ := h
  cases e with
  | none => simp at h
  | some env =>
    simp only [bind_eq_ok, pure_eq_ok, Prod.mk.injEq] at h
    obtain ⟨s, hs, m, hm, rfl, rfl, rfl⟩ := h
    unfold extractMaxMinSpline at he
    rw [bind_eq_ok] at he
    obtain ⟨e, he, h⟩ := he
    refine ⟨e, he, ?_⟩
    split at h
    · simp [pure_eq_ok] at h
    · simp only [bind_eq_ok, pure_eq_ok] at h
      obtain ⟨⟨a, b⟩, hab, _, -, _, -, h⟩ := h
      simp only [Option.some.injEq] at h
      rw [← h]
      exact hab

theorem siftOnce_length {sp : SciPy α} {cfg : Cfg α} {T x y : List α} {eMax eMin : List (α × α)}
    (h : siftOnce sp cfg T x = .ok (y, eMax, eMin)) : y.length = x.length := by
  obtain ⟨_, _, h, _⟩ := siftOnce_spec h
  exact h

theorem countExt_spec {cfg : Cfg α} {T x : List α} {e z : Int} (h : countExt cfg T x = .ok (e, z)) :
    ∃ r, findExtrema cfg.detection T x = .ok r ∧ e = ((r.maxPos.length + r.minPos.length : Nat) : Int) ∧
      z = (r.indzer.length : Int) := by
  unfold countExt at h
  simp only [bind_eq_ok, pure_eq_ok, Prod.mk.injEq] at h
  obtain ⟨r, hr, rfl, rfl⟩ := h
  exact ⟨r, hr, by push_cast; omega, rfl⟩

/-- After more than two extrema were counted, `extract_max_min_spline` does not return `[-1] * 4`. -/
theorem extractMaxMinSpline_ne_none {sp : SciPy α} {cfg : Cfg α} {T x : List α} {e z : Int}
    (h : countExt cfg T x = .ok (e, z)) (he : 2 < e) :
    extractMaxMinSpline sp cfg.detection cfg.splineKind cfg.nbsym T x ≠ .ok none := by
  obtain ⟨r, hr, rfl, rfl⟩ := countExt_spec h
  unfold extractMaxMinSpline
  intro hc
  rw [bind_eq_ok] at hc
  obtain ⟨r', hr', hc⟩ := hc
  rw [hr] at hr'
  cases hr'
  rw [if_neg (by push_cast at he; omega)] at hc
  simp only [bind_eq_ok, pure_eq_ok] at hc
  obtain ⟨_, _, _, _, _, _, hc⟩ := hc
  simp at hc

theorem imfLike_of_countExt {cfg : Cfg α} {T x : List α} {e z : Int} (h : countExt cfg T x = .ok (e, z))
    (hez : |e - z| < 2) : ImfLike cfg T x := by
  obtain ⟨r, hr, rfl, rfl⟩ := countExt_spec h
  exact ⟨r, hr, by omega⟩

theorem fewExtrema_of_countExt {cfg : Cfg α} {T x : List α} {e z : Int} (h : countExt cfg T x = .ok (e, z))
    (he : ¬ e > 2) : FewExtrema cfg T x := by
  obtain ⟨r, hr, rfl, rfl⟩ := countExt_spec h
  exact ⟨r, hr, by push_cast at he; omega⟩

/-- Inversion of one pass through the loop body. -/
theorem siftBody_inv {sp : SciPy α} {cfg : Cfg α} {T : List α} {s : Sift α} {r : SiftStep α}
    (h : siftBody sp cfg T s = .ok r) :
    (cfg.MAX_ITERATION ≤ s.n + 1 ∧ r = .brk { s with n := s.n + 1 } .maxIter) ∨
    (s.n + 1 < cfg.MAX_ITERATION ∧ ∃ e z, countExt cfg T s.imf = .ok (e, z) ∧
      ((¬ e > 2 ∧ r = .brk { s with n := s.n + 1, extNo := e } .trend) ∨
       (e > 2 ∧ ∃ imf eMax eMin, siftOnce sp cfg T s.imf = .ok (imf, eMax, eMin) ∧
        ((cfg.FIXE ≠ 0 ∧ cfg.FIXE ≤ s.n + 1 ∧
            r = .brk { s with n := s.n + 1, extNo := e, imf, subs := s.subs + 1 } .fixe) ∨
         (cfg.FIXE ≠ 0 ∧ s.n + 1 < cfg.FIXE ∧
            r = .cont { s with n := s.n + 1, extNo := e, imf, subs := s.subs + 1 }) ∨
         (cfg.FIXE = 0 ∧ cfg.FIXE_H ≠ 0 ∧ ∃ e' z', countExt cfg T imf = .ok (e', z') ∧
           ((s.n + 1 = 1 ∧ r = .cont { s with n := s.n + 1, extNo := e', imf, subs := s.subs + 1 }) ∨
            (s.n + 1 ≠ 1 ∧ ∃ nh, nh = (if |e' - z'| < 2 then s.nh + 1 else 0) ∧
              ((cfg.FIXE_H ≤ nh ∧ r = .brk { n := s.n + 1, nh, extNo := e', imf, subs := s.subs + 1 } .fixeH) ∨
               (nh < cfg.FIXE_H ∧ r = .cont { n := s.n + 1, nh, extNo := e', imf, subs := s.subs + 1 }))))) ∨
         (cfg.FIXE = 0 ∧ cfg.FIXE_H = 0 ∧ ∃ e' z' f1, countExt cfg T imf = .ok (e', z') ∧
           checkImf cfg imf s.imf eMax eMin = .ok f1 ∧
           ((f1 = true ∧ |e' - z'| < 2 ∧
              r = .brk { s with n := s.n + 1, extNo := e', imf, subs := s.subs + 1 } .converged) ∨
            (¬ (f1 = true ∧ |e' - z'| < 2) ∧
              r = .cont { s with n := s.n + 1, extNo := e', imf, subs := s.subs + 1 }))))))) := by
  unfold siftBody at h
  dsimp only at h
  split at h
  next hm =>
    left
    rw [pure_eq_ok] at h
    exact ⟨hm, h.symm⟩
  next hm =>
    right
    refine ⟨by omega, ?_⟩
    rw [bind_eq_ok] at h
    obtain ⟨⟨e, z⟩, hc, h⟩ := h
    refine ⟨e, z, hc, ?_⟩
    dsimp only at h
    split at h
    next he =>
      right
      rw [bind_eq_ok] at h
      obtain ⟨⟨imf, eMax, eMin⟩, hs, h⟩ := h
      refine ⟨he, imf, eMax, eMin, hs, ?_⟩
      dsimp only at h
      split at h
      next hF =>
        split at h
        next hn => rw [pure_eq_ok] at h; exact .inl ⟨hF, hn, h.symm⟩
        next hn => rw [pure_eq_ok] at h; exact .inr (.inl ⟨hF, by omega, h.symm⟩)
      next hF =>
        right; right
        split at h
        next hH =>
          left
          rw [bind_eq_ok] at h
          obtain ⟨⟨e', z'⟩, hc', h⟩ := h
          refine ⟨by simpa using hF, hH, e', z', hc', ?_⟩
          dsimp only at h
          split at h
          next hn => rw [pure_eq_ok] at h; exact .inl ⟨hn, h.symm⟩
          next hn =>
            right
            refine ⟨hn, _, rfl, ?_⟩
            generalize (if |e' - z'| < 2 then s.nh + 1 else 0) = nh at h ⊢
            split at h
            next hh => rw [pure_eq_ok] at h; exact .inl ⟨hh, h.symm⟩
            next hh => rw [pure_eq_ok] at h; exact .inr ⟨by omega, h.symm⟩
        next hH =>
          right
          rw [bind_eq_ok] at h
          obtain ⟨⟨e', z'⟩, hc', h⟩ := h
          dsimp only at h
          rw [bind_eq_ok] at h
          obtain ⟨f1, hf1, h⟩ := h
          refine ⟨by simpa using hF, by simpa using hH, e', z', f1, hc', hf1, ?_⟩
          split at h
          next hh =>
            rw [pure_eq_ok] at h
            simp only [Bool.and_eq_true, decide_eq_true_eq] at hh
            exact .inl ⟨hh.1, hh.2, h.symm⟩
          next hh =>
            rw [pure_eq_ok] at h
            simp only [Bool.and_eq_true, decide_eq_true_eq] at hh
            exact .inr ⟨hh, h.symm⟩
    next he =>
      left
      rw [pure_eq_ok] at h
      exact ⟨he, h.symm⟩

/-- Invariant of the inner loop: `seq` are the proto-IMFs so far. -/
structure SiftInv (sp : SciPy α) (cfg : Cfg α) (T x0 : List α) (s : Sift α) (seq : List (List α)) : Prop where
  path : SiftPath sp cfg T s.subs x0 s.imf seq
  count : s.n = (s.subs : Int)
  bound : s.subs = 0 ∨ s.n < cfg.MAX_ITERATION
  fixe : cfg.FIXE ≠ 0 → s.subs = 0 ∨ s.n < cfg.FIXE
  nh_nonneg : 0 ≤ s.nh
  nh_seq : ∀ z ∈ seq.take s.nh.toNat, ImfLike cfg T z
  nh_len : s.nh = 0 ∨ s.nh + 1 ≤ s.n
  nh_zero : cfg.FIXE ≠ 0 ∨ cfg.FIXE_H = 0 → s.nh = 0

/-- What is known when the sifting ends. -/
structure SiftPost (sp : SciPy α) (cfg : Cfg α) (T x0 : List α) (s : Sift α) (why : SiftEnd)
    (seq : List (List α)) : Prop where
  path : SiftPath sp cfg T s.subs x0 s.imf seq
  bound : s.subs = 0 ∨ (s.subs : Int) < cfg.MAX_ITERATION
  maxIter : why = .maxIter → cfg.MAX_ITERATION ≤ (s.subs : Int) + 1
  fixe : why = .fixe → cfg.FIXE ≠ 0 ∧ (0 < cfg.FIXE → (s.subs : Int) = cfg.FIXE)
  fixe' : 0 < cfg.FIXE → (s.subs : Int) ≤ cfg.FIXE
  fixeH : why = .fixeH → cfg.FIXE = 0 ∧ cfg.FIXE_H ≠ 0 ∧
    (0 < cfg.FIXE_H → cfg.FIXE_H + 1 ≤ (s.subs : Int) ∧ ∀ z ∈ seq.take cfg.FIXE_H.toNat, ImfLike cfg T z)
  converged : why = .converged → cfg.FIXE = 0 ∧ cfg.FIXE_H = 0 ∧ 1 ≤ s.subs ∧ ImfLike cfg T s.imf ∧
    ∃ old rest e kmax kmin, seq = s.imf :: old :: rest ∧ findExtrema cfg.detection T old = .ok e ∧
      preparePoints cfg.detection cfg.nbsym T old e = .ok (kmax, kmin) ∧ checkImf cfg s.imf old kmax kmin = .ok true
  trend : why = .trend → s.extNo ≤ 2 ∧ FewExtrema cfg T s.imf

theorem Spec.SiftPath.snoc {sp : SciPy α} {cfg : Cfg α} {T x0 x y : List α} {m : Nat} {seq : List (List α)}
    (h : SiftPath sp cfg T m x0 x seq) (hs : SubtractsMean sp cfg T x y) :
    SiftPath sp cfg T (m + 1) x0 y (y :: seq) := by
  obtain ⟨h1, h2, h3, h4⟩ := h
  cases seq with
  | nil => simp at h3
  | cons a as =>
    simp only [List.head?_cons, Option.some.injEq] at h3
    subst h3
    exact ⟨.step h1 hs, by simpa using h2, by simp, by simpa using h4⟩

theorem siftInv_start (sp : SciPy α) (cfg : Cfg α) (T x0 : List α) (e : Int) :
    SiftInv sp cfg T x0 { n := 0, nh := 0, extNo := e, imf := x0, subs := 0 } [x0] where
  path := ⟨.start x0, by simp, by simp, by simp⟩
  count := by simp
  bound := by simp
  fixe := by simp
  nh_nonneg := by simp
  nh_seq := by simp
  nh_len := by simp
  nh_zero := by simp

theorem siftBody_brk {sp : SciPy α} {cfg : Cfg α} {T x0 : List α} {s s' : Sift α} {why : SiftEnd}
    {seq : List (List α)} (hi : SiftInv sp cfg T x0 s seq) (h : siftBody sp cfg T s = .ok (.brk s' why)) :
    ∃ seq', SiftPost sp cfg T x0 s' why seq' := by
  obtain ⟨hp, hc, hb, hf, hn0, hns, hnl, hnz⟩ := hi
  rcases siftBody_inv h with ⟨hm, hr⟩ | ⟨hm, e, z, hce, ⟨he, hr⟩ | ⟨he, imf, eMax, eMin, hs, hr⟩⟩
  · cases hr
    exact ⟨seq, hp, by rw [← hc]; exact hb, fun _ => by rw [← hc]; exact hm, nofun,
      fun h0 => by rcases hf (by omega) with h | h <;> simp only <;> omega, nofun, nofun, nofun⟩
  · cases hr
    exact ⟨seq, hp, by rw [← hc]; exact hb, nofun, nofun,
      fun h0 => by rcases hf (by omega) with h | h <;> simp only <;> omega, nofun, nofun,
      fun _ => ⟨by simpa using he, fewExtrema_of_countExt hce he⟩⟩
  · have hp' := hp.snoc (siftOnce_spec hs)
    rcases hr with ⟨h1, h2, hr⟩ | ⟨_, _, hr⟩ | ⟨h1, h2, e', z', hce', hr⟩ | ⟨h1, h2, e', z', f1, hce', hf1, hr⟩
    · cases hr
      exact ⟨_, hp', .inr (by push_cast; omega), nofun,
        fun _ => ⟨h1, fun h0 => by rcases hf h1 with h | h <;> push_cast <;> omega⟩,
        fun h0 => by rcases hf h1 with h | h <;> push_cast <;> omega, nofun, nofun, nofun⟩
    · cases hr
    · rcases hr with ⟨_, hr⟩ | ⟨hn1, nh, hnh, ⟨hle, hr⟩ | ⟨_, hr⟩⟩
      · cases hr
      · cases hr
        refine ⟨_, hp', .inr (by push_cast; omega), nofun, nofun, fun h0 => by omega,
          fun _ => ⟨h1, h2, fun hpos => ?_⟩, nofun, nofun⟩
        split at hnh
        next hlt =>
          refine ⟨by push_cast; omega, fun z hz => ?_⟩
          have h3 : cfg.FIXE_H.toNat ≤ s.nh.toNat + 1 := by omega
          have hz' := List.take_subset_take_left _ h3 hz
          rw [List.take_succ_cons] at hz'
          rcases List.mem_cons.1 hz' with rfl | hz'
          · exact imfLike_of_countExt hce' hlt
          · exact hns _ hz'
        next hlt => omega
      · cases hr
    · rcases hr with ⟨hf, hlt, hr⟩ | ⟨_, hr⟩
      · cases hr
        refine ⟨_, hp', .inr (by push_cast; omega), nofun, nofun, fun h0 => by omega, nofun,
          fun _ => ⟨h1, h2, by simp, imfLike_of_countExt hce' hlt, ?_⟩, nofun⟩
        obtain ⟨ex, hex, hk⟩ := siftOnce_knots hs
        obtain ⟨-, -, hhd, -⟩ := hp
        cases seq with
        | nil => simp at hhd
        | cons a rest =>
          simp only [List.head?_cons, Option.some.injEq] at hhd
          subst hhd
          exact ⟨s.imf, rest, ex, eMax, eMin, rfl, hex, hk, by rw [hf1, hf]⟩
      · cases hr

theorem siftBody_cont {sp : SciPy α} {cfg : Cfg α} {T x0 : List α} {s s' : Sift α}
    {seq : List (List α)} (hi : SiftInv sp cfg T x0 s seq) (h : siftBody sp cfg T s = .ok (.cont s')) :
    s'.n = s.n + 1 ∧ s.n + 1 < cfg.MAX_ITERATION ∧ ∃ seq', SiftInv sp cfg T x0 s' seq' := by
  obtain ⟨hp, hc, hb, hf, hn0, hns, hnl, hnz⟩ := hi
  rcases siftBody_inv h with ⟨hm, hr⟩ | ⟨hm, e, z, hce, ⟨he, hr⟩ | ⟨he, imf, eMax, eMin, hs, hr⟩⟩
  · cases hr
  · cases hr
  · have hp' := hp.snoc (siftOnce_spec hs)
    have hzero : s.nh = 0 → ∀ z ∈ (imf :: seq).take s.nh.toNat, ImfLike cfg T z := by
      intro h0; simp [h0]
    rcases hr with ⟨h1, h2, hr⟩ | ⟨h1, h2, hr⟩ | ⟨h1, h2, e', z', hce', hr⟩ | ⟨h1, h2, e', z', f1, hce', hf1, hr⟩
    · cases hr
    · cases hr
      have h0 := hnz (.inl h1)
      exact ⟨rfl, hm, _, hp', by push_cast; omega, .inr (by simpa using hm), fun _ => .inr h2, hn0, hzero h0,
        .inl h0, hnz⟩
    · rcases hr with ⟨hn1, hr⟩ | ⟨hn1, nh, hnh, ⟨hle, hr⟩ | ⟨hlt, hr⟩⟩
      · cases hr
        have h0 : s.nh = 0 := by omega
        exact ⟨rfl, hm, _, hp', by push_cast; omega, .inr (by simpa using hm), fun h => absurd h1 h, hn0, hzero h0,
          .inl h0, hnz⟩
      · cases hr
      · cases hr
        refine ⟨rfl, hm, _, hp', by push_cast; omega, .inr (by simpa using hm), fun h => absurd h1 h, ?_, ?_, ?_, ?_⟩
        · simp only; split at hnh <;> omega
        · simp only
          split at hnh
          next hl =>
            intro z hz
            rw [hnh, show (s.nh + 1).toNat = s.nh.toNat + 1 by omega, List.take_succ_cons] at hz
            rcases List.mem_cons.1 hz with rfl | hz
            · exact imfLike_of_countExt hce' hl
            · exact hns _ hz
          next hl => simp [hnh]
        · simp only; split at hnh <;> omega
        · intro h; rcases h with h | h
          · exact absurd h1 h
          · exact absurd h h2
    · rcases hr with ⟨hf, hlt, hr⟩ | ⟨_, hr⟩
      · cases hr
      · cases hr
        have h0 := hnz (.inr h2)
        exact ⟨rfl, hm, _, hp', by push_cast; omega, .inr (by simpa using hm), fun h => absurd h1 h, hn0, hzero h0,
          .inl h0, hnz⟩

theorem siftLoop_post {sp : SciPy α} {cfg : Cfg α} {T x0 : List α} (fuel : Nat) {s s' : Sift α} {why : SiftEnd}
    {seq : List (List α)} (hi : SiftInv sp cfg T x0 s seq) (h : siftLoop sp cfg T fuel s = .ok (s', why)) :
    ∃ seq', SiftPost sp cfg T x0 s' why seq' := by
  induction fuel generalizing s seq with
  | zero => simp [siftLoop] at h
  | succ fuel ih =>
    rw [siftLoop, bind_eq_ok] at h
    obtain ⟨r, hr, h⟩ := h
    cases r with
    | brk s1 w =>
      simp only [pure_eq_ok, Prod.mk.injEq] at h
      obtain ⟨rfl, rfl⟩ := h
      exact siftBody_brk hi hr
    | cont s1 =>
      obtain ⟨_, _, seq', hi'⟩ := siftBody_cont hi hr
      exact ih hi' h

/-- The inner loop never runs out of fuel. -/
theorem siftLoop_terminates (sp : SciPy α) (cfg : Cfg α) (T x0 : List α) (fuel : Nat) (s : Sift α)
    (seq : List (List α)) (hi : SiftInv sp cfg T x0 s seq)
    (hf : cfg.MAX_ITERATION - s.n ≤ (fuel : Int)) (h0 : 0 < fuel) : NoFuel (siftLoop sp cfg T fuel s) := by
  induction fuel generalizing s seq with
  | zero => omega
  | succ fuel ih =>
    rw [siftLoop]
    refine (siftBody_noFuel sp cfg T s).bind fun r hr => ?_
    cases r with
    | brk s1 w => exact .pure _
    | cont s1 =>
      obtain ⟨h1, h2, seq', hi'⟩ := siftBody_cont hi hr
      exact ih s1 seq' hi' (by push_cast at hf; omega) (by push_cast at hf; omega)

theorem emdRound_noFuel (sp : SciPy α) (cfg : Cfg α) (T S : List α) (IMF : List (List α)) (e : Int) :
    NoFuel (emdRound sp cfg T S IMF e) := by
  unfold emdRound
  exact siftLoop_terminates sp cfg T _ _ _ _ (siftInv_start _ _ _ _ _) (by simp only [siftFuel]; omega)
    (by simp [siftFuel])

theorem emdRound_post {sp : SciPy α} {cfg : Cfg α} {T S : List α} {IMF : List (List α)} {e : Int} {s : Sift α}
    {why : SiftEnd} (h : emdRound sp cfg T S IMF e = .ok (s, why)) :
    ∃ seq, SiftPost sp cfg T (vsub S (sumRows S.length IMF)) s why seq :=
  siftLoop_post _ (siftInv_start _ _ _ _ _) h

theorem Spec.SubtractsMean.length {sp : SciPy α} {cfg : Cfg α} {T x y : List α} (h : SubtractsMean sp cfg T x y) :
    y.length = x.length := by
  obtain ⟨_, _, h, _⟩ := h; exact h

theorem Spec.SiftSeq.length {sp : SciPy α} {cfg : Cfg α} {T x : List α} {seq : List (List α)} (h : SiftSeq sp cfg T seq)
    (hx : seq.getLast? = some x) : ∀ y ∈ seq, y.length = x.length := by
  induction h with
  | start a => simp at hx; simp [hx]
  | step h1 h2 ih =>
    rw [List.getLast?_cons_cons] at hx
    have := ih hx
    intro y hy
    rcases List.mem_cons.1 hy with rfl | hy
    · rw [h2.length]; exact this _ (by simp)
    · exact this _ hy

theorem Spec.SiftPath.length {sp : SciPy α} {cfg : Cfg α} {T x y : List α} {m : Nat} {seq : List (List α)}
    (h : SiftPath sp cfg T m x y seq) : y.length = x.length := by
  obtain ⟨h1, _, h3, h4⟩ := h
  exact h1.length h4 _ (List.mem_of_mem_head? h3)

/-- Round `j` of the outer loop went as the sifting loop prescribes; `e` is the number of extrema after it. -/
def RoundOk (sp : SciPy α) (cfg : Cfg α) (T S : List α) (rounds : List (Round α)) (j : Nat) (e : Int) : Prop :=
  ∃ s seq r, rounds[j]? = some r ∧
    SiftPost sp cfg T (vsub S (sumRows S.length ((rounds.take j).map (·.imf)))) s r.why seq ∧
    r.imf = s.imf ∧ r.subs = s.subs ∧ e = s.extNo

/-- The outer loop did not stop after round `j`. -/
def GoesOn (cfg : Cfg α) (S : List α) (max_imf : Int) (rounds : List (Round α)) (j : Nat) : Prop :=
  endCondition cfg S ((rounds.take (j + 1)).map (·.imf)) = .ok false ∧ ((j + 1 : Nat) : Int) ≠ max_imf ∧
    ∀ r, rounds[j]? = some r → r.why ≠ .trend

/-- The outer loop stops after all of `rounds`. -/
def Stops (cfg : Cfg α) (S : List α) (max_imf : Int) (rounds : List (Round α)) : Prop :=
  endCondition cfg S (rounds.map (·.imf)) = .ok true ∨ (rounds.length : Int) = max_imf ∨
    ∃ r, rounds.getLast? = some r ∧ r.why = .trend

/-- What is known when the outer loop ends. -/
structure LoopPost (sp : SciPy α) (cfg : Cfg α) (T S : List α) (max_imf : Int) (rounds : List (Round α))
    (extNo : Int) : Prop where
  ne : rounds ≠ []
  ok : ∀ j < rounds.length, ∃ e, RoundOk sp cfg T S rounds j e ∧ (j + 1 = rounds.length → e = extNo)
  goesOn : ∀ j, j + 1 < rounds.length → GoesOn cfg S max_imf rounds j
  stops : Stops cfg S max_imf rounds
  endOk : ∃ b, endCondition cfg S (rounds.map (·.imf)) = .ok b

theorem RoundOk.append {sp : SciPy α} {cfg : Cfg α} {T S : List α} {rounds : List (Round α)} {j : Nat} {e : Int}
    (h : RoundOk sp cfg T S rounds j e) (hj : j < rounds.length) (r : Round α) :
    RoundOk sp cfg T S (rounds ++ [r]) j e := by
  obtain ⟨s, seq, r', h1, h2⟩ := h
  refine ⟨s, seq, r', ?_, ?_⟩
  · rw [List.getElem?_append_left hj, h1]
  · rwa [List.take_append_of_le_length (by omega)]

theorem GoesOn.append {cfg : Cfg α} {S : List α} {max_imf : Int} {rounds : List (Round α)} {j : Nat}
    (h : GoesOn cfg S max_imf rounds j) (hj : j < rounds.length) (r : Round α) :
    GoesOn cfg S max_imf (rounds ++ [r]) j := by
  unfold GoesOn at h ⊢
  rwa [List.getElem?_append_left hj, List.take_append_of_le_length (by omega)]

theorem emdLoop_post {sp : SciPy α} {cfg : Cfg α} {T S : List α} {max_imf : Int} (fuel : Nat)
    {rounds rounds' : List (Round α)} {extNo extNo' : Int}
    (hok : ∀ j < rounds.length, ∃ e, RoundOk sp cfg T S rounds j e)
    (hgo : ∀ j < rounds.length, GoesOn cfg S max_imf rounds j)
    (h : emdLoop sp cfg T S max_imf fuel rounds extNo = .ok (rounds', extNo')) :
    LoopPost sp cfg T S max_imf rounds' extNo' := by
  induction fuel generalizing rounds extNo with
  | zero => simp [emdLoop] at h
  | succ fuel ih =>
    rw [emdLoop, bind_eq_ok] at h
    obtain ⟨⟨s, why⟩, hr, h⟩ := h
    dsimp only at h
    rw [bind_eq_ok] at h
    obtain ⟨fin, hfin, h⟩ := h
    obtain ⟨seq, hpost⟩ := emdRound_post hr
    have hlast : RoundOk sp cfg T S (rounds ++ [{ imf := s.imf, why, subs := s.subs, nh := s.nh }])
        rounds.length s.extNo := by
      refine ⟨s, seq, { imf := s.imf, why, subs := s.subs, nh := s.nh }, by simp, ?_, rfl, rfl, rfl⟩
      simpa using hpost
    split at h
    next hb =>
      rw [pure_eq_ok, Prod.mk.injEq] at h
      obtain ⟨rfl, rfl⟩ := h
      refine ⟨by simp, fun j hj => ?_, fun j hj => ?_, ?_, ⟨_, hfin⟩⟩
      · by_cases hj' : j < rounds.length
        · obtain ⟨e, he⟩ := hok j hj'
          exact ⟨e, he.append hj' _, fun hh => by simp at hh; omega⟩
        · have : j = rounds.length := by simp at hj; omega
          subst this
          exact ⟨s.extNo, hlast, fun _ => rfl⟩
      · have hj' : j < rounds.length := by simp at hj; omega
        exact (hgo j hj').append hj' _
      · simp only [Bool.or_eq_true, decide_eq_true_eq, beq_iff_eq] at hb
        rcases hb with (hb | hb) | hb
        · subst hb; exact .inl hfin
        · exact .inr (.inl hb)
        · exact .inr (.inr ⟨_, by simp; rfl, hb⟩)
    next hb =>
      simp only [Bool.or_eq_true, decide_eq_true_eq, beq_iff_eq, not_or] at hb
      obtain ⟨⟨hb1, hb2⟩, hb3⟩ := hb
      refine ih ?_ ?_ h
      · intro j hj
        by_cases hj' : j < rounds.length
        · obtain ⟨e, he⟩ := hok j hj'
          exact ⟨e, he.append hj' _⟩
        · have : j = rounds.length := by simp at hj; omega
          subst this
          exact ⟨s.extNo, hlast⟩
      · intro j hj
        by_cases hj' : j < rounds.length
        · exact (hgo j hj').append hj' _
        · have : j = rounds.length := by simp at hj; omega
          subst this
          refine ⟨?_, by simpa using hb2, by simpa using hb3⟩
          rw [List.take_of_length_le (by simp)]
          simpa [hb1] using hfin

theorem emdLoop_noFuel (sp : SciPy α) (cfg : Cfg α) (T S : List α) (max_imf : Int) (fuel : Nat)
    (rounds : List (Round α)) (extNo : Int) (h1 : (rounds.length : Int) < max_imf)
    (h2 : max_imf - rounds.length ≤ (fuel : Int)) : NoFuel (emdLoop sp cfg T S max_imf fuel rounds extNo) := by
  induction fuel generalizing rounds extNo with
  | zero => simp at h2; omega
  | succ fuel ih =>
    rw [emdLoop]
    refine (emdRound_noFuel _ _ _ _ _ _).bind fun ⟨s, why⟩ hr => ?_
    refine (endCondition_noFuel _ _ _).bind fun fin hfin => ?_
    split
    · exact .pure _
    next hb =>
      simp only [Bool.or_eq_true, decide_eq_true_eq, beq_iff_eq, not_or] at hb
      obtain ⟨⟨hb1, hb2⟩, hb3⟩ := hb
      simp only [List.length_append, List.length_cons, List.length_nil] at hb2
      push_cast at hb2 h2
      apply ih <;> simp <;> omega

theorem emdLoop_mono (sp : SciPy α) (cfg : Cfg α) (T S : List α) (max_imf : Int) (fuel fuel' : Nat)
    (rounds : List (Round α)) (extNo : Int) (hf : fuel ≤ fuel')
    (h : NoFuel (emdLoop sp cfg T S max_imf fuel rounds extNo)) :
    emdLoop sp cfg T S max_imf fuel' rounds extNo = emdLoop sp cfg T S max_imf fuel rounds extNo := by
  induction fuel generalizing rounds extNo fuel' with
  | zero => simp [emdLoop, NoFuel] at h
  | succ fuel ih =>
    obtain ⟨k, rfl⟩ : ∃ k, fuel' = k + 1 := ⟨fuel' - 1, by omega⟩
    rw [emdLoop] at h
    rw [emdLoop, emdLoop]
    cases hr : emdRound sp cfg T S (rounds.map (·.imf)) extNo with
    | error e => rfl
    | ok p =>
      obtain ⟨s, why⟩ := p
      rw [hr] at h
      simp only [bind, Except.bind] at h ⊢
      split
      · rfl
      next fin hfin =>
        rw [hfin] at h
        dsimp only at h
        split
        · rfl
        next hb =>
          rw [if_neg hb] at h
          exact ih _ _ _ (by omega) h

/-- The lengths of all rows. -/
theorem LoopPost.length {sp : SciPy α} {cfg : Cfg α} {T S : List α} {max_imf : Int} {rounds : List (Round α)}
    {extNo : Int} (h : LoopPost sp cfg T S max_imf rounds extNo) : ∀ r ∈ rounds, r.imf.length = S.length := by
  suffices H : ∀ j < rounds.length, ∀ r, rounds[j]? = some r → r.imf.length = S.length by
    intro r hr
    obtain ⟨j, hj⟩ := List.mem_iff_getElem?.1 hr
    exact H j (List.getElem?_eq_some_iff.1 hj).1 r hj
  intro j
  induction j using Nat.strongRecOn with
  | ind j ih =>
    intro hj r hr
    obtain ⟨e, ⟨s, seq, r', h1, h2, h3, h4, h5⟩, -⟩ := h.ok j hj
    rw [h1] at hr
    cases hr
    rw [h3, h2.path.length, length_vsub, length_sumRows]
    · simp
    · intro x hx
      rw [List.mem_map] at hx
      obtain ⟨r'', hr'', rfl⟩ := hx
      obtain ⟨i, hi⟩ := List.mem_iff_getElem?.1 hr''
      rw [List.getElem?_take] at hi
      split at hi
      next hij => exact ih i hij (by omega) r'' hi
      · simp at hi

theorem LoopPost.length_le {sp : SciPy α} {cfg : Cfg α} {T S : List α} {max_imf : Int} {rounds : List (Round α)}
    {extNo : Int} (h : LoopPost sp cfg T S max_imf rounds extNo) (hm : 1 ≤ max_imf) :
    (rounds.length : Int) ≤ max_imf := by
  by_contra hc
  have := (h.goesOn (max_imf.toNat - 1) (by omega)).2.1
  omega

/-- Only the last round can have found a trend. -/
theorem LoopPost.trend_last {sp : SciPy α} {cfg : Cfg α} {T S : List α} {max_imf : Int} {rounds : List (Round α)}
    {extNo : Int} (h : LoopPost sp cfg T S max_imf rounds extNo) {j : Nat} {r : Round α}
    (hr : rounds[j]? = some r) (ht : r.why = .trend) : j + 1 = rounds.length ∧ extNo ≤ 2 := by
  have hj := (List.getElem?_eq_some_iff.1 hr).1
  have h1 : j + 1 = rounds.length := by
    by_contra hc
    exact (h.goesOn j (by omega)).2.2 r hr ht
  obtain ⟨e, ⟨s, seq, r', h2, h3, h4, h5, h6⟩, h7⟩ := h.ok j hj
  rw [hr] at h2
  cases h2
  exact ⟨h1, by rw [← h7 h1, h6]; exact (h3.trend ht).1⟩

theorem emdRounds_post {fuel : Nat} {sp : SciPy α} {cfg : Cfg α} {S : List α} {T : Option (List α)} {max_imf : Int}
    {rounds : List (Round α)} {extNo : Int} (h : emdRounds fuel sp cfg S T max_imf = .ok (rounds, extNo)) :
    ∃ T', prepareTime cfg S T = .ok T' ∧ LoopPost sp cfg T' S max_imf rounds extNo := by
  unfold emdRounds at h
  rw [bind_eq_ok] at h
  obtain ⟨T', hT, h⟩ := h
  exact ⟨T', hT, emdLoop_post fuel (by simp) (by simp) h⟩

/-- Inversion of a successful decomposition. -/
theorem emdPure_post {fuel : Nat} {sp : SciPy α} {cfg : Cfg α} {S : List α} {T : Option (List α)} {max_imf : Int}
    {r : Result α} (h : emdPure fuel sp cfg S T max_imf = .ok r) :
    ∃ T' rounds extNo, prepareTime cfg S T = .ok T' ∧ emdRounds fuel sp cfg S T max_imf = .ok (rounds, extNo) ∧
      LoopPost sp cfg T' S max_imf rounds extNo ∧ r = finish S (rounds.map (·.imf)) extNo := by
  unfold emdPure at h
  rw [bind_eq_ok] at h
  obtain ⟨⟨rounds, extNo⟩, hr, h⟩ := h
  obtain ⟨T', hT, hp⟩ := emdRounds_post hr
  rw [pure_eq_ok] at h
  exact ⟨T', rounds, extNo, hT, hr, hp, h.symm⟩

theorem finish_rows (S : List α) (IMF : List (List α)) (e : Int) : (finish S IMF e).rows =
    if allclose0 (finish S IMF e).residue then (finish S IMF e).imfs
    else (finish S IMF e).imfs ++ [(finish S IMF e).residue] := rfl

theorem finish_residue (S : List α) (IMF : List (List α)) (e : Int) :
    (finish S IMF e).residue = vsub S (sumRows S.length (finish S IMF e).imfs) := rfl

theorem finish_imfs_prefix (S : List α) (IMF : List (List α)) (e : Int) :
    (finish S IMF e).imfs = IMF.take ((finish S IMF e).imfs.length) ∧ (finish S IMF e).imfs.length ≤ IMF.length := by
  unfold finish
  dsimp only
  split
  · simp [List.dropLast_eq_take]
  · simp

theorem finish_imfs_length (S : List α) (IMF : List (List α)) (e : Int) :
    (finish S IMF e).imfs.length = if e ≤ 2 then IMF.length - 1 else IMF.length := by
  unfold finish
  dsimp only
  split <;> simp

theorem emdPure_imfs_length {fuel : Nat} {sp : SciPy α} {cfg : Cfg α} {S : List α} {T : Option (List α)}
    {max_imf : Int} {r : Result α} (h : emdPure fuel sp cfg S T max_imf = .ok r) :
    ∀ x ∈ r.imfs, x.length = S.length := by
  obtain ⟨T', rounds, extNo, -, -, hp, rfl⟩ := emdPure_post h
  intro x hx
  rw [(finish_imfs_prefix _ _ _).1] at hx
  obtain ⟨r, hr, rfl⟩ := List.mem_map.1 (List.mem_of_mem_take hx)
  exact hp.length r hr

theorem allclose0_iff (r : List α) : allclose0 r = true ↔ Vanishes r := by
  simp [allclose0, Vanishes]

end EMD
end PyEMD
