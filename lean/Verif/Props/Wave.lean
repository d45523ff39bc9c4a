import Verif.Spec.Wave
import Verif.Props.Mirror
import Verif.Props.Scipy

/-!
# A wave with equal peaks is separated from its level (C108)
-/

set_option linter.unusedSectionVars false

namespace PyEMD
namespace EMD
open Spec PyEMD.Spec

variable {K : Type} [Field K] [LinearOrder K] [IsStrictOrderedRing K] [FloorRing K]

/-- Equal knot values are interpolated by that value. -/
def KeepsConst (f : Interp K) : Prop :=
  ∀ (X t q : List K) (b : K), X.Pairwise (· < ·) → f X (X.map (fun _ => b)) t = some q → q = t.map (fun _ => b)

theorem KeepsConst.of_lines {f : Interp K} (h : Spec.KeepsLines f) : KeepsConst f := by
  intro X t q b hX hq
  have := h X t q 0 b hX (by simpa using hq)
  simpa using this

/-- All interpolators keep constants. -/
structure ConstAll (sp : SciPy K) : Prop where
  akima : KeepsConst sp.akima
  cubic : KeepsConst sp.cubic
  pchip : KeepsConst sp.pchip
  cubicHermite : KeepsConst sp.cubicHermite
  slinear : KeepsConst sp.slinear
  quadratic : KeepsConst sp.quadratic
  linear : KeepsConst sp.linear

theorem scipy_const : ConstAll (Scipy.scipy : SciPy K) := by
  obtain ⟨h1, h2, h3, h4, h5, h6⟩ := Scipy.C100_lines (K := K)
  exact ⟨.of_lines h1, .of_lines h2, .of_lines h3, .of_lines h4, .of_lines h6, .of_lines h5, .of_lines h6⟩

/-! ## Envelopes -/

/-- The knots have equal values, so the envelope has them everywhere. -/
theorem splinePoints_const {sp : SciPy K} (hsp : AcceptsAll sp) (hc : ConstAll sp) {kind : SplineKind} (hk : kind ≠ .unknown) {n : Nat}
    {S pos val : List K} {k : List (K × K)} (h : GoodKnots (timeArr n) S pos val k) (b : K) (hb : ∀ p ∈ k, p.2 = b) :
    ∃ t, splinePoints sp kind (timeArr n) k = .ok (t, List.replicate n b) := by
  obtain ⟨t, q, h1, h2⟩ := splinePoints_ok hsp hk h
  have hY : k.map (·.2) = (k.map (·.1)).map (fun _ => b) := by
    rw [List.map_map]
    exact List.map_congr_left (fun p hp => hb p hp)
  have hX : (k.map (·.1)).Pairwise (· < ·) := by rw [List.pairwise_map]; exact h.increasing
  suffices hq : ∀ v ∈ q, v = b by
    refine ⟨t, ?_⟩
    rw [h1, ← h2]
    congr 2
    exact List.eq_replicate_of_mem hq
  have fin : ∀ (f : Interp K) (hf : KeepsConst f) (u v : List K), f (k.map (·.1)) (k.map (·.2)) u = some v → ∀ x ∈ v, x = b := by
    intro f hf u v hv x hx
    rw [hY] at hv
    rw [hf _ _ _ _ hX hv] at hx
    obtain ⟨y, -, rfl⟩ := List.mem_map.1 hx
    rfl
  unfold splinePoints at h1
  simp only [bind_eq_ok] at h1
  obtain ⟨x0, hx0, xL, hxL, h1⟩ := h1
  have out : ∀ (f : Interp K) (hf : KeepsConst f) (t' u : List K),
      (ofScipy (f (k.map (·.1)) (k.map (·.2)) u) >>= fun v => (pure (t', v) : PyM (List K × List K))) = .ok (t, q) → ∀ x ∈ q, x = b := by
    intro f hf t' u h
    simp only [bind_eq_ok, pure_eq_ok] at h
    obtain ⟨v, hv, h⟩ := h
    obtain ⟨rfl, rfl⟩ := Prod.mk.inj h
    refine fin f hf u v ?_
    cases hfu : f (k.map (·.1)) (k.map (·.2)) u with
    | none => rw [hfu] at hv; cases hv
    | some w => rw [hfu] at hv; injection hv with hv; rw [hv]
  cases kind with
  | unknown => exact absurd rfl hk
  | akima => exact out _ hc.akima _ _ h1
  | pchip => exact out _ hc.pchip _ _ h1
  | cubicHermite => exact out _ hc.cubicHermite _ _ h1
  | slinear => exact out _ hc.slinear _ _ h1
  | quadratic => exact out _ hc.quadratic _ _ h1
  | linear => exact out _ hc.linear _ _ h1
  | cubic =>
    simp only [] at h1
    split at h1
    · exact out _ hc.cubic _ _ h1
    · next hlen =>
      have h3 : k.length = 3 := by have := h.three; omega
      have hinc := h.increasing
      match k, h3, hinc, hb, h1 with
      | [k0, k1, k2], _, hi, hb, h1 =>
        simp only [List.pairwise_cons, List.mem_cons, List.not_mem_nil, or_false] at hi
        have g0 : k0.1 < k1.1 := hi.1 k1 (.inl rfl)
        have g1 : k1.1 < k2.1 := hi.2.1 k2 rfl
        obtain ⟨a0, a1, a2, e0, e1, e2, e3⟩ := spline3Slopes_spec k0.1 k1.1 k2.1 b b b g0 g1
        have hh : 0 < k1.1 - k0.1 := sub_pos.2 g0
        have hg : 0 < k2.1 - k1.1 := sub_pos.2 g1
        simp only [sub_self, mul_zero, zero_div, add_zero] at e1 e2 e3
        have z1 : a1 = 0 := by
          have b0 : a0 = -a1 / 2 := by linarith
          have b2 : a2 = -a1 / 2 := by linarith
          rw [b0, b2] at e3
          have hp : 0 < 1 / (k1.1 - k0.1) + 1 / (k2.1 - k1.1) := by positivity
          have : a1 * (3 / 2 * (1 / (k1.1 - k0.1) + 1 / (k2.1 - k1.1))) = 0 := by
            rw [← e3]; field_simp; ring
          rcases mul_eq_zero.1 this with h | h
          · exact h
          · linarith
        have z0 : a0 = 0 := by rw [z1] at e1; linarith
        have z2 : a2 = 0 := by rw [z1] at e2; linarith
        subst z0 z1 z2
        have v0 : k0.2 = b := hb k0 (by simp)
        have v1 : k1.2 = b := hb k1 (by simp)
        have v2 : k2.2 = b := hb k2 (by simp)
        simp only [List.map_cons, List.map_nil, v0, v1, v2] at h1
        unfold cubicSpline3pts at h1
        simp only [e0, bind, Except.bind, pure, Except.pure] at h1
        injection h1 with h1
        obtain ⟨-, rfl⟩ := Prod.mk.inj h1
        intro v hv
        rw [List.mem_append, List.mem_map, List.mem_map] at hv
        rcases hv with ⟨τ, -, rfl⟩ | ⟨τ, -, rfl⟩ <;>
        · simp only [spline3Seg, lit_one]
          ring

/-! ## Waves as they are detected -/

/-- What the detector finds in a wave. -/
structure Detected (S : List K) (lo hi : K) : Prop where
  within : ∀ s ∈ S, lo ≤ s ∧ s ≤ hi
  maxima : ∀ i ∈ reported isPos isNeg S, sAt S i = hi
  minima : ∀ i ∈ reported isNeg isPos S, sAt S i = lo
  three : 3 ≤ (reported isPos isNeg S).length + (reported isNeg isPos S).length

theorem edge_values {nb : Nat} {t0 s0 : K} {far : Prop} {X Y own other : List (K × K)} {x y : K} (hX : ∀ p ∈ X, p.2 = x)
    (hY : ∀ p ∈ Y, p.2 = y) (hs : ¬ far → s0 = y) (h : Edge nb t0 s0 far X Y own other) :
    (∀ p ∈ own, p.2 = x) ∧ ∀ p ∈ other, p.2 = y := by
  have img : ∀ (c v : K) (ps : List (K × K)), (∀ p ∈ ps, p.2 = v) → ∀ p ∈ image c ps, p.2 = v := by
    intro c v ps h p hp
    obtain ⟨q, hq, rfl⟩ := List.mem_map.1 hp
    exact h q hq
  obtain ⟨x0, X', rfl, h⟩ := h
  have hX' : ∀ p ∈ X', p.2 = x := fun p hp => hX p (by simp [hp])
  rcases h with ⟨-, -, rfl, rfl⟩ | ⟨-, -, rfl, rfl⟩ | ⟨hf, rfl, rfl⟩
  · exact ⟨img _ _ _ (fun p hp => hX' p (List.mem_of_mem_take hp)), img _ _ _ (fun p hp => hY p (List.mem_of_mem_take hp))⟩
  · exact ⟨img _ _ _ (fun p hp => hX p (List.mem_of_mem_take hp)), img _ _ _ (fun p hp => hY p (List.mem_of_mem_take hp))⟩
  · refine ⟨img _ _ _ (fun p hp => hX p (List.mem_of_mem_take hp)), img _ _ _ (fun p hp => ?_)⟩
    rcases List.mem_cons.1 hp with rfl | hp
    · exact hs hf
    · exact hY p (List.mem_of_mem_take hp)

theorem added_values {nb : Nat} {t0 s0 : K} {mx mn lx ln : List (K × K)} {lo hi : K} (h1 : ∀ p ∈ mx, p.2 = hi) (h2 : ∀ p ∈ mn, p.2 = lo)
    (hs : lo ≤ s0 ∧ s0 ≤ hi) (h : Added nb t0 s0 mx mn lx ln) : (∀ p ∈ lx, p.2 = hi) ∧ ∀ p ∈ ln, p.2 = lo := by
  obtain ⟨x, y, hx, hy, h⟩ := h
  have ex : x.2 = hi := h1 x (List.mem_of_mem_head? hx)
  have ey : y.2 = lo := h2 y (List.mem_of_mem_head? hy)
  rcases h with ⟨-, h⟩ | ⟨-, h⟩
  · exact edge_values h1 h2 (fun hf => by rw [ey, not_lt] at hf; exact le_antisymm hf hs.1) h
  · exact (edge_values h2 h1 (fun hf => by rw [ex, not_lt] at hf; exact le_antisymm hs.2 hf) h).symm

theorem back_values {c v : K} {ps : List (K × K)} : (∀ p ∈ back c ps, p.2 = v) ↔ ∀ p ∈ ps, p.2 = v := by
  unfold back
  simp only [List.mem_reverse, List.mem_map]
  constructor
  · intro h p hp
    exact h (c - p.1, p.2) ⟨p, hp, rfl⟩
  · rintro h _ ⟨p, hp, rfl⟩
    exact h p hp

theorem knots_values {S : List K} {lo hi : K} (hw : Detected S lo hi) {nb : Nat} {t0 s0 t1 s1 : K} {mx mn kx kn : List (K × K)}
    (h0 : s0 ∈ S) (h1 : s1 ∈ S) (hmx : ∀ p ∈ mx, p.2 = hi) (hmn : ∀ p ∈ mn, p.2 = lo) (h : EnvelopeKnots nb t0 s0 t1 s1 mx mn kx kn) :
    (∀ p ∈ kx, p.2 = hi) ∧ ∀ p ∈ kn, p.2 = lo := by
  obtain ⟨lx, ln, rx, rn, ha, hb, ⟨-, hx⟩, ⟨-, hn⟩⟩ := h
  obtain ⟨a1, a2⟩ := added_values hmx hmn (hw.within s0 h0) ha
  obtain ⟨b1, b2⟩ := added_values (back_values.2 hmx) (back_values.2 hmn) (hw.within s1 h1) hb
  rw [back_values] at b1 b2
  constructor
  · intro p hp
    rcases (hx p).1 hp with h | h | h
    · exact a1 p h
    · exact hmx p h
    · exact b1 p h
  · intro p hp
    rcases (hn p).1 hp with h | h | h
    · exact a2 p h
    · exact hmn p h
    · exact b2 p h

/-- One sifting step subtracts the level. -/
theorem siftOnce_wave {sp : SciPy K} (hsp : AcceptsAll sp) (hc : ConstAll sp) {cfg : Cfg K} (hd : cfg.detection = .simple) (hnb : 1 ≤ cfg.nbsym)
    (hk : cfg.splineKind ≠ .unknown) {S : List K} {lo hi : K} (hw : Detected S lo hi) :
    ∃ a b, siftOnce sp cfg (timeArr S.length) S = .ok (S.map (fun x => x - (hi + lo) / 2), a, b) := by
  have he := findExtremaSimple_eq (timeArr S.length : List K) S (timeArr_length _)
  have h3 := hw.three
  obtain ⟨nb, hnb'⟩ : ∃ nb : Nat, cfg.nbsym = (nb : Int) := ⟨cfg.nbsym.toNat, by omega⟩
  obtain ⟨kmax, kmin, s0, s1, g0, g1, hp, hE⟩ := C81_mirror_rule nb (by omega) S (timeArr S.length) rfl _ he (by simpa using h3)
  obtain ⟨kmax', kmin', hp', gx, gn⟩ := C21_knots (nb : Int) (by omega) S (timeArr S.length) rfl _ he (by simpa using h3)
  rw [hp] at hp'
  injection hp' with hp'
  obtain ⟨rfl, rfl⟩ := Prod.mk.inj hp'
  obtain ⟨vx, vn⟩ := knots_values hw (List.mem_of_mem_head? g0) (List.mem_of_mem_getLast? g1)
    (by
      intro p hp
      obtain ⟨i, hi, h⟩ := List.mem_map.1 (List.of_mem_zip hp).2
      rw [← h]; exact hw.maxima i hi)
    (by
      intro p hp
      obtain ⟨i, hi, h⟩ := List.mem_map.1 (List.of_mem_zip hp).2
      rw [← h]; exact hw.minima i hi) hE
  obtain ⟨t1, e1⟩ := splinePoints_const hsp hc hk gx hi vx
  obtain ⟨t2, e2⟩ := splinePoints_const hsp hc hk gn lo vn
  refine ⟨kmax, kmin, ?_⟩
  unfold siftOnce extractMaxMinSpline
  have he' : findExtrema .simple (timeArr S.length) S = _ := he
  simp only [hd, he', bind, Except.bind]
  rw [if_neg (by simpa using h3), hnb', hp]
  simp only [e1, e2, pure, Except.pure]
  have hb : bcast (fun a b : K => a + b) (List.replicate S.length hi) (List.replicate S.length lo)
      = .ok (List.zipWith (fun a b => a + b) (List.replicate S.length hi) (List.replicate S.length lo)) := by
    unfold bcast
    rw [if_pos (by simp)]
  rw [hb]
  simp only []
  unfold assignAll
  rw [if_pos (by simp)]
  simp only []
  congr 2
  apply List.ext_getElem
  · simp [vsub]
  · intro i h1 h2
    simp only [vsub, List.getElem_zipWith, List.getElem_map, List.getElem_replicate, lit_half]
    ring

/-! ## The specification implies what is detected -/

theorem shift_getElem? (S : List K) (c : K) (i : Nat) (v : K) : (S.map (fun x => x - c))[i]? = some v ↔ S[i]? = some (v + c) := by
  rw [List.getElem?_map]
  cases S[i]? with
  | none => simp
  | some x => simp [sub_eq_iff_eq_add]

theorem shift_top {S : List K} {c : K} {l r : Nat} : IsTop (S.map (fun x => x - c)) l r ↔ IsTop S l r := by
  unfold Spec.IsTop
  simp only [shift_getElem?]
  constructor
  · rintro ⟨h1, h2, v, a, b, h3, h4, h5, h6, h7⟩
    exact ⟨h1, h2, v + c, a + c, b + c, h3, h4, h5, by linarith, by linarith⟩
  · rintro ⟨h1, h2, v, a, b, h3, h4, h5, h6, h7⟩
    exact ⟨h1, h2, v - c, a - c, b - c, by simpa using h3, by simpa using h4, by simpa using h5, by linarith, by linarith⟩

theorem shift_bottom {S : List K} {c : K} {l r : Nat} : IsBottom (S.map (fun x => x - c)) l r ↔ IsBottom S l r := by
  unfold Spec.IsBottom
  simp only [shift_getElem?]
  constructor
  · rintro ⟨h1, h2, v, a, b, h3, h4, h5, h6, h7⟩
    exact ⟨h1, h2, v + c, a + c, b + c, h3, h4, h5, by linarith, by linarith⟩
  · rintro ⟨h1, h2, v, a, b, h3, h4, h5, h6, h7⟩
    exact ⟨h1, h2, v - c, a - c, b - c, by simpa using h3, by simpa using h4, by simpa using h5, by linarith, by linarith⟩

theorem Spec.Wave.shift {S : List K} {lo hi : K} (h : Wave S lo hi) (c : K) : Wave (S.map (fun x => x - c)) (lo - c) (hi - c) := by
  have ne : ∀ i j : Nat, S[i]? ≠ S[j]? → (S.map (fun x => x - c))[i]? ≠ (S.map (fun x => x - c))[j]? := by
    intro i j h hc
    apply h
    rw [List.getElem?_map, List.getElem?_map] at hc
    exact Option.map_injective (fun a b h => by simpa using h) hc
  refine ⟨by linarith [h.lt], ?_, ?_, ?_, ne _ _ h.start, ne _ _ h.second, ?_⟩
  · intro s hs
    obtain ⟨x, hx, rfl⟩ := List.mem_map.1 hs
    have := h.within x hx
    constructor <;> linarith [this.1, this.2]
  · intro l r ht
    rw [shift_getElem?]
    simpa using h.tops l r (shift_top.1 ht)
  · intro l r ht
    rw [shift_getElem?]
    simpa using h.bottoms l r (shift_bottom.1 ht)
  · obtain ⟨l1, r1, l2, r2, l3, r3, h1, h2, h3, h4, h5⟩ := h.turns
    exact ⟨l1, r1, l2, r2, l3, r3, h1.imp shift_top.2 shift_bottom.2, h2.imp shift_top.2 shift_bottom.2, h3.imp shift_top.2 shift_bottom.2, h4, h5⟩

theorem middle_between {l r m : Nat} (h : l ≤ r) (hm : IsMiddle l r m) : l ≤ m ∧ m ≤ r := by
  unfold IsMiddle at hm
  omega

theorem exists_middle (l r : Nat) : ∃ m, IsMiddle l r m := by
  unfold IsMiddle
  by_cases h : (l + r) % 2 = 0
  · exact ⟨(l + r) / 2, by omega⟩
  · by_cases h' : ((l + r) / 2) % 2 = 0
    · exact ⟨(l + r) / 2, by omega⟩
    · exact ⟨(l + r) / 2 + 1, by omega⟩

theorem Spec.Wave.detected {S : List K} {lo hi : K} (h : Wave S lo hi) : Detected S lo hi := by
  obtain ⟨l1, r1, l2, r2, l3, r3, t1, t2, t3, h12, h23⟩ := h.turns
  have lr : ∀ {l r}, IsTurn S l r → l ≤ r := by
    rintro l r (h | h) <;> exact h.2.1
  have noFlat1 : ∀ {l r}, IsTurn S l r → ¬ (l = 1 ∧ l < r) := by
    rintro l r h' ⟨rfl, hlt⟩
    rcases h' with ⟨-, -, v, a, b, hf, -⟩ | ⟨-, -, v, a, b, hf, -⟩ <;>
    · exact h.second ((hf 1 (by omega) (by omega)).trans (hf 2 (by omega) (by omega)).symm)
  have memT : ∀ {l r m}, IsTurn S l r → IsMiddle l r m → m ∈ reported isPos isNeg S ∨ m ∈ reported isNeg isPos S := by
    intro l r m ht hm
    rcases id ht with h' | h'
    · exact .inl (mem_maxima.2 (.inl ⟨l, r, h', noFlat1 ht, hm⟩))
    · exact .inr (mem_minima.2 (.inl ⟨l, r, h', noFlat1 ht, hm⟩))
  have val : ∀ {l r m v}, IsMiddle l r m → l ≤ r → (∃ w, ∀ i, l ≤ i → i ≤ r → S[i]? = some w) → S[l]? = some v → sAt S m = v := by
    rintro l r m v hm hle ⟨w, hw⟩ hl
    obtain ⟨h1, h2⟩ := middle_between hle hm
    rw [hw l (le_refl _) hle] at hl
    injection hl with hl
    have := hw m h1 h2
    rw [hl] at this
    simp [sAt, List.getD, this]
  refine ⟨h.within, ?_, ?_, ?_⟩
  · intro i hi
    rcases mem_maxima.1 hi with ⟨l, r, ht, -, hm⟩ | ⟨r, ⟨hr, ⟨v, b, hf, -⟩, -⟩, -⟩
    · obtain ⟨-, hle, v, a, b, hf, -⟩ := id ht
      exact val hm hle ⟨v, hf⟩ (h.tops l r ht)
    · exact absurd ((hf 0 (by omega)).trans (hf 1 hr).symm) h.start
  · intro i hi
    rcases mem_minima.1 hi with ⟨l, r, ht, -, hm⟩ | ⟨r, ⟨hr, ⟨v, b, hf, -⟩, -⟩, -⟩
    · obtain ⟨-, hle, v, a, b, hf, -⟩ := id ht
      exact val hm hle ⟨v, hf⟩ (h.bottoms l r ht)
    · exact absurd ((hf 0 (by omega)).trans (hf 1 hr).symm) h.start
  · obtain ⟨m1, e1⟩ := exists_middle l1 r1
    obtain ⟨m2, e2⟩ := exists_middle l2 r2
    obtain ⟨m3, e3⟩ := exists_middle l3 r3
    have b1 := middle_between (lr t1) e1
    have b2 := middle_between (lr t2) e2
    have b3 := middle_between (lr t3) e3
    rw [← List.length_append]
    have hsub : [m1, m2, m3] ⊆ reported isPos isNeg S ++ reported isNeg isPos S := by
      intro x hx
      simp only [List.mem_cons, List.not_mem_nil, or_false] at hx
      rw [List.mem_append]
      rcases hx with rfl | rfl | rfl
      · exact memT t1 e1
      · exact memT t2 e2
      · exact memT t3 e3
    have hnd : [m1, m2, m3].Nodup := by
      simp only [List.nodup_cons, List.mem_cons, List.not_mem_nil, or_false, not_or, List.nodup_nil, and_true, not_false_eq_true]
      omega
    exact (List.subperm_of_subset hnd hsub).length_le

/-! ## The decomposition -/

theorem countExt_detected {cfg : Cfg K} (hd : cfg.detection = .simple) {S : List K} {lo hi : K} (h : Detected S lo hi) :
    ∃ e z, countExt cfg (timeArr S.length) S = .ok (e, z) ∧ 2 < e := by
  have he := findExtremaSimple_eq (timeArr S.length : List K) S (timeArr_length _)
  obtain ⟨e, z, h1⟩ := countExt_ok hd S
  obtain ⟨r, h2, rfl, -⟩ := countExt_spec h1
  refine ⟨_, _, h1, ?_⟩
  rw [hd, show findExtrema .simple (timeArr S.length : List K) S = _ from he] at h2
  injection h2 with h2
  have := h.three
  subst h2
  simp only [List.length_map]
  omega

/-- Inside the sifting the proto-IMF is the wave or the wave about zero. -/
theorem siftLoop_wave {sp : SciPy K} (hsp : AcceptsAll sp) (hc : ConstAll sp) {cfg : Cfg K} (hd : cfg.detection = .simple) (hnb : 1 ≤ cfg.nbsym)
    (hk : cfg.splineKind ≠ .unknown) (hM : 2 ≤ cfg.MAX_ITERATION) {S : List K} {lo hi : K} (hw : Wave S lo hi) (fuel : Nat) (s s' : Sift K)
    (why : SiftEnd) (hs : (s.imf = S ∧ s.n = 0) ∨ (s.imf = S.map (fun x => x - (hi + lo) / 2) ∧ 2 < s.extNo))
    (h : siftLoop sp cfg (timeArr S.length) fuel s = .ok (s', why)) : s'.imf = S.map (fun x => x - (hi + lo) / 2) ∧ 2 < s'.extNo := by
  have hw0 := hw.shift ((hi + lo) / 2)
  have key : ∀ x, (x = S ∨ x = S.map (fun x => x - (hi + lo) / 2)) →
      (∃ a b, siftOnce sp cfg (timeArr S.length) x = .ok (S.map (fun x => x - (hi + lo) / 2), a, b)) ∧
      ∃ e z, countExt cfg (timeArr S.length) x = .ok (e, z) ∧ 2 < e := by
    rintro x (rfl | rfl)
    · exact ⟨siftOnce_wave hsp hc hd hnb hk hw.detected, countExt_detected hd hw.detected⟩
    · obtain ⟨a, b, h1⟩ := siftOnce_wave hsp hc hd hnb hk hw0.detected
      obtain ⟨e, z, h2, h3⟩ := countExt_detected hd hw0.detected
      rw [List.length_map] at h1 h2
      refine ⟨⟨a, b, ?_⟩, e, z, h2, h3⟩
      rw [h1]
      have e0 : (hi - (hi + lo) / 2 + (lo - (hi + lo) / 2)) / 2 = 0 := by ring
      rw [e0]
      simp
  induction fuel generalizing s with
  | zero => cases h
  | succ fuel ih =>
    unfold siftLoop at h
    simp only [bind_eq_ok] at h
    obtain ⟨r, hr, h⟩ := h
    have step : (∃ s'' why', r = .brk s'' why' ∧ s''.imf = S.map (fun x => x - (hi + lo) / 2) ∧ 2 < s''.extNo) ∨
        ∃ s'', r = .cont s'' ∧ s''.imf = S.map (fun x => x - (hi + lo) / 2) ∧ 2 < s''.extNo := by
      have hx : s.imf = S ∨ s.imf = S.map (fun x => x - (hi + lo) / 2) := hs.imp And.left And.left
      obtain ⟨⟨a, b, h1⟩, e, z, h2, h3⟩ := key s.imf hx
      obtain ⟨-, e', z', h2', h3'⟩ := key _ (.inr rfl)
      unfold siftBody at hr
      simp only [] at hr
      split at hr
      · next hmax =>
        injection hr with hr
        left
        rcases hs with ⟨-, h0⟩ | h'
        · omega
        · exact ⟨_, _, hr.symm, h'⟩
      · simp only [h2, bind, Except.bind] at hr
        rw [if_pos h3] at hr
        simp only [h1, h2', pure, Except.pure] at hr
        split at hr
        · split at hr <;> injection hr with hr
          · exact .inl ⟨_, _, hr.symm, rfl, h3⟩
          · exact .inr ⟨_, hr.symm, rfl, h3⟩
        · split at hr
          · split at hr
            · injection hr with hr
              exact .inr ⟨_, hr.symm, rfl, h3'⟩
            · generalize (if |e' - z'| < 2 then s.nh + 1 else 0) = nh at hr
              split at hr <;> injection hr with hr
              · exact .inl ⟨_, _, hr.symm, rfl, h3'⟩
              · exact .inr ⟨_, hr.symm, rfl, h3'⟩
          · cases hv : checkImf cfg (S.map (fun x => x - (hi + lo) / 2)) s.imf a b with
            | error e => rw [hv] at hr; cases hr
            | ok v =>
              rw [hv] at hr
              simp only [] at hr
              split at hr <;> injection hr with hr
              · exact .inl ⟨_, _, hr.symm, rfl, h3'⟩
              · exact .inr ⟨_, hr.symm, rfl, h3'⟩
    rcases step with ⟨s'', why', rfl, h1, h2⟩ | ⟨s'', rfl, h1, h2⟩
    · injection h with h
      obtain ⟨rfl, rfl⟩ := Prod.mk.inj h
      exact ⟨h1, h2⟩
    · exact ih s'' (.inr ⟨h1, h2⟩) h

/-- C108: a wave whose tops all reach `hi` and whose bottoms all reach `lo` is decomposed into one component, the wave about zero, and the level
`(hi + lo) / 2` as residue: for every spline kind, in every stopping mode, whatever the thresholds (positive `range_thr`) and `max_imf`. -/
theorem C108_wave (fuel : Nat) (hf : 1 ≤ fuel) (sp : SciPy K) (hsp : AcceptsAll sp) (hc : ConstAll sp) (cfg : Cfg K)
    (hd : cfg.detection = .simple) (hnb : 1 ≤ cfg.nbsym) (hk : cfg.splineKind ≠ .unknown) (hM : 2 ≤ cfg.MAX_ITERATION)
    (hr : 0 < cfg.rangeThr) (S : List K) (lo hi : K) (hw : Wave S lo hi) (T : Option (List K))
    (hT : ∀ T', T = some T' → T'.length = S.length) (mi : Int) :
    ∃ R, emdPure fuel sp cfg S T mi = .ok R ∧ R.imfs = [S.map (fun x => x - (hi + lo) / 2)] ∧ R.residue = S.map (fun _ => (hi + lo) / 2) ∧
      R.rows = if |(hi + lo) / 2| ≤ 1 / 100000000 then R.imfs else R.imfs ++ [R.residue] := by
  have hlen : 3 ≤ S.length := by
    obtain ⟨l1, r1, l2, r2, l3, r3, t1, t2, t3, h12, h23⟩ := hw.turns
    have : l3 < S.length := by
      rcases t3 with ⟨-, hle, v, a, b, hf, -⟩ | ⟨-, hle, v, a, b, hf, -⟩ <;>
      · exact (List.getElem?_eq_some_iff.1 (hf l3 (le_refl _) hle)).1
    have : 1 ≤ l1 ∧ l1 ≤ r1 := by rcases t1 with h | h <;> exact ⟨h.1, h.2.1⟩
    have : l2 ≤ r2 := by rcases t2 with h | h <;> exact h.2.1
    omega
  obtain ⟨⟨s, why⟩, h1⟩ := emdRound_ok hsp hd hnb hk S (by omega) [] (by simp) (-1)
  have hz : vsub S (sumRows S.length []) = S := by
    apply List.ext_getElem
    · simp [vsub, sumRows, vzeros]
    · intro i h1 h2
      simp [vsub, sumRows, vzeros]
  have h1' := h1
  unfold emdRound at h1'
  simp only [hz] at h1'
  obtain ⟨h2, h3⟩ := siftLoop_wave hsp hc hd hnb hk hM hw _ _ _ _ (.inl ⟨rfl, rfl⟩) h1'
  obtain ⟨fuel, rfl⟩ : ∃ f, fuel = f + 1 := ⟨fuel - 1, by omega⟩
  have hL : vsub S (sumRows S.length [S.map (fun x => x - (hi + lo) / 2)]) = S.map (fun _ => (hi + lo) / 2) := by
    apply List.ext_getElem
    · simp [vsub, sumRows, vadd, vzeros]
    · intro i h1 h2
      simp [vsub, sumRows, vadd, vzeros]
  have hne : S.map (fun _ => (hi + lo) / 2) ≠ [] := by
    intro h
    rw [List.map_eq_nil_iff] at h
    rw [h] at hlen
    simp at hlen
  have hmem : ∀ v ∈ S.map (fun _ => (hi + lo) / 2), v = (hi + lo) / 2 := by
    intro v hv
    obtain ⟨_, -, rfl⟩ := List.mem_map.1 hv
    rfl
  have hend : endCondition cfg S [S.map (fun x => x - (hi + lo) / 2)] = .ok true := by
    unfold endCondition npMaxE npMinE
    rw [hL]
    dsimp only
    rw [if_neg (by simpa using hne), if_neg (by simpa using hne)]
    simp only [bind, Except.bind, pure, Except.pure]
    rw [hmem _ (npMax_spec hne).1, hmem _ (npMin_spec hne).1, sub_self, if_pos hr]
  have hx : ¬ s.extNo ≤ 2 := by omega
  refine ⟨finish S [S.map (fun x => x - (hi + lo) / 2)] s.extNo, ?_, ?_, ?_, ?_⟩
  · unfold emdPure emdRounds
    rw [prepareTime_simple cfg hd S (by omega) T hT]
    unfold emdLoop
    have h1'' : emdRound sp cfg ((List.range S.length).map (fun k : Nat => (k : K))) S [] (-1) = .ok (s, why) := h1
    simp only [List.map_nil, List.nil_append, List.map_cons, h1'', h2, hend, bind, Except.bind, Bool.true_or, if_true, pure, Except.pure]
  · simp only [finish, if_neg hx]
  · simp only [finish, if_neg hx, hL]
  · simp only [finish, if_neg hx, hL]
    have : allclose0 (S.map (fun _ => (hi + lo) / 2)) = true ↔ |(hi + lo) / 2| ≤ 1 / 100000000 := by
      unfold allclose0
      rw [List.all_eq_true]
      simp only [decide_eq_true_eq, pyAbs_eq, lit_eq]
      constructor
      · intro h
        have := h ((hi + lo) / 2) (by
          obtain ⟨x, hx⟩ := List.exists_mem_of_ne_nil _ hne
          have := hmem x hx
          subst this; exact hx)
        simpa using this
      · intro h v hv
        rw [hmem v hv]
        simpa using h
    by_cases hz : |(hi + lo) / 2| ≤ 1 / 100000000
    · rw [if_pos (this.2 hz), if_pos hz]
    · rw [if_neg (fun h => hz (this.1 h)), if_neg hz]

/-- C108 for the interpolators of scipy and the default options. -/
theorem C108_default (S : List K) (lo hi : K) (hw : Wave S lo hi) :
    ∃ R, emdPure 1 Scipy.scipy (Cfg.default : Cfg K) S none (-1) = .ok R ∧ R.imfs = [S.map (fun x => x - (hi + lo) / 2)] ∧
      R.residue = S.map (fun _ => (hi + lo) / 2) := by
  obtain ⟨R, h1, h2, h3, -⟩ := C108_wave 1 (le_refl _) Scipy.scipy Scipy.C98_accepts scipy_const (Cfg.default : Cfg K) rfl (by simp [Cfg.default]) (by simp [Cfg.default])
    (by simp [Cfg.default]) (by simp [Cfg.default, lit_eq]) S lo hi hw none (by rintro T' ⟨⟩) (-1)
  exact ⟨R, h1, h2, h3⟩

/-- For signals without flat steps it is enough to look at three neighbouring samples. -/
theorem wave_of_steps {S : List K} {lo hi : K} (lt : lo < hi) (within : ∀ s ∈ S, lo ≤ s ∧ s ≤ hi)
    (flat : ∀ (i : Nat) a b, S[i]? = some a → S[i + 1]? = some b → a ≠ b)
    (tops : ∀ (i : Nat) a b c, S[i]? = some a → S[i + 1]? = some b → S[i + 2]? = some c → a < b → c < b → b = hi)
    (bottoms : ∀ (i : Nat) a b c, S[i]? = some a → S[i + 1]? = some b → S[i + 2]? = some c → b < a → b < c → b = lo)
    (turns : ∃ i j k : Nat, i < j ∧ j < k ∧ ∀ x ∈ [i, j, k], ∃ a b c, S[x]? = some a ∧ S[x + 1]? = some b ∧ S[x + 2]? = some c ∧
      ((a < b ∧ c < b) ∨ (b < a ∧ b < c))) : Wave S lo hi := by
  have single : ∀ l r : Nat, l ≤ r → (∃ v, ∀ i, l ≤ i → i ≤ r → S[i]? = some v) → l = r := by
    rintro l r hle ⟨v, hv⟩
    by_contra hne
    exact flat l v v (hv l (le_refl _) hle) (hv (l + 1) (by omega) (by omega)) rfl
  obtain ⟨i, j, k, hij, hjk, ht⟩ := turns
  have turn : ∀ x : Nat, (∃ a b c, S[x]? = some a ∧ S[x + 1]? = some b ∧ S[x + 2]? = some c ∧ ((a < b ∧ c < b) ∨ (b < a ∧ b < c))) →
      IsTurn S (x + 1) (x + 1) := by
    rintro x ⟨a, b, c, ha, hb, hc, h | h⟩
    · exact .inl ⟨by omega, le_refl _, b, a, c, fun i h1 h2 => by rw [show i = x + 1 by omega]; exact hb, by simpa using ha, hc, h⟩
    · exact .inr ⟨by omega, le_refl _, b, a, c, fun i h1 h2 => by rw [show i = x + 1 by omega]; exact hb, by simpa using ha, hc, h⟩
  have hlen : i + 2 < S.length := by
    obtain ⟨a, b, c, -, -, hc, -⟩ := ht i (by simp)
    exact (List.getElem?_eq_some_iff.1 hc).1
  refine ⟨lt, within, ?_, ?_, ?_, ?_, i + 1, i + 1, j + 1, j + 1, k + 1, k + 1, turn i (ht i (by simp)), turn j (ht j (by simp)),
    turn k (ht k (by simp)), by omega, by omega⟩
  · rintro l r ⟨h1, h2, v, a, b, hv, ha, hb, hav, hbv⟩
    obtain rfl := single l r h2 ⟨v, hv⟩
    obtain ⟨l, rfl⟩ : ∃ l', l = l' + 1 := ⟨l - 1, by omega⟩
    have := hv (l + 1) (le_refl _) (le_refl _)
    rw [this, tops l a v b (by simpa using ha) this hb hav hbv]
  · rintro l r ⟨h1, h2, v, a, b, hv, ha, hb, hav, hbv⟩
    obtain rfl := single l r h2 ⟨v, hv⟩
    obtain ⟨l, rfl⟩ : ∃ l', l = l' + 1 := ⟨l - 1, by omega⟩
    have := hv (l + 1) (le_refl _) (le_refl _)
    rw [this, bottoms l a v b (by simpa using ha) this hb hav hbv]
  · intro h
    exact flat 0 _ _ (List.getElem?_eq_getElem (by omega)) (List.getElem?_eq_getElem (by omega))
      (by rw [List.getElem?_eq_getElem (by omega), List.getElem?_eq_getElem (by omega)] at h; injection h)
  · intro h
    exact flat 1 _ _ (List.getElem?_eq_getElem (by omega)) (List.getElem?_eq_getElem (by omega))
      (by rw [List.getElem?_eq_getElem (by omega), List.getElem?_eq_getElem (by omega)] at h; injection h)

/-- The fastest oscillation, of amplitude `a` about the level `c`. -/
def zigzag (n : Nat) (c a : K) : List K := (List.range n).map (fun i => if i % 2 = 0 then c + a else c - a)

theorem zigzag_wave (n : Nat) (hn : 5 ≤ n) (c a : K) (ha : 0 < a) : Wave (zigzag n c a) (c - a) (c + a) := by
  have get : ∀ i x, (zigzag n c a)[i]? = some x → x = if i % 2 = 0 then c + a else c - a := by
    intro i x h
    unfold zigzag at h
    rw [List.getElem?_map] at h
    by_cases hi : i < n
    · rw [List.getElem?_range hi] at h
      simp at h
      exact h.symm
    · rw [List.getElem?_eq_none (by simpa using hi)] at h
      cases h
  have get' : ∀ i, i < n → (zigzag n c a)[i]? = some (if i % 2 = 0 then c + a else c - a) := by
    intro i hi
    unfold zigzag
    rw [List.getElem?_map, List.getElem?_range hi]
    rfl
  refine wave_of_steps (by linarith) ?_ ?_ ?_ ?_ ⟨0, 1, 2, by omega, by omega, ?_⟩
  · intro s hs
    obtain ⟨i, -, rfl⟩ := List.mem_map.1 hs
    split <;> constructor <;> linarith
  · intro i x y hx hy h
    rw [get _ _ hx, get _ _ hy] at h
    rcases Nat.mod_two_eq_zero_or_one i with e | e
    · rw [if_pos e, if_neg (by omega)] at h; linarith
    · rw [if_neg (by omega), if_pos (by omega)] at h; linarith
  · intro i x y z hx hy hz h1 h2
    rw [get _ _ hx, get _ _ hy] at h1
    rw [get _ _ hy]
    rcases Nat.mod_two_eq_zero_or_one i with e | e
    · rw [if_pos e, if_neg (by omega)] at h1; linarith
    · rw [if_pos (by omega)]
  · intro i x y z hx hy hz h1 h2
    rw [get _ _ hx, get _ _ hy] at h1
    rw [get _ _ hy]
    rcases Nat.mod_two_eq_zero_or_one i with e | e
    · rw [if_neg (by omega)]
    · rw [if_pos (by omega), if_neg (by omega)] at h1; linarith
  · intro x hx
    have hx' : x + 2 < n := by
      simp only [List.mem_cons, List.not_mem_nil, or_false] at hx
      omega
    refine ⟨_, _, _, get' x (by omega), get' (x + 1) (by omega), get' (x + 2) hx', ?_⟩
    rcases Nat.mod_two_eq_zero_or_one x with e | e
    · right
      rw [if_pos e, if_neg (by omega), if_pos (by omega)]
      constructor <;> linarith
    · left
      rw [if_neg (by omega), if_pos (by omega), if_neg (by omega)]
      constructor <;> linarith

/-- C108: the fastest oscillation is separated from its level, for every length, level and amplitude. -/
theorem C108_zigzag (n : Nat) (hn : 5 ≤ n) (c a : K) (ha : 0 < a) :
    ∃ R, emdPure 1 Scipy.scipy (Cfg.default : Cfg K) (zigzag n c a) none (-1) = .ok R ∧ R.imfs = [zigzag n 0 a] ∧ R.residue = List.replicate n c := by
  obtain ⟨R, h1, h2, h3⟩ := C108_default (zigzag n c a) (c - a) (c + a) (zigzag_wave n hn c a ha)
  refine ⟨R, h1, ?_, ?_⟩
  · rw [h2]
    congr 1
    unfold zigzag
    rw [List.map_map]
    apply List.map_congr_left
    intro i _
    dsimp only [Function.comp]
    split <;> ring
  · rw [h3]
    have e : (c + a + (c - a)) / 2 = c := by ring
    rw [e]
    refine List.eq_replicate_iff.2 ⟨by simp [zigzag], fun x hx => ?_⟩
    obtain ⟨_, -, rfl⟩ := List.mem_map.1 hx
    rfl

/-- One and a half periods of a wave about 2 with eight samples per period, which is not a zigzag. -/
example : Wave ([2, 4, 5, 4, 2, 0, -1, 0, 2, 4, 5, 4, 2] : List ℚ) (-1) 5 := by
  have lt : ∀ (i : Nat) (a : ℚ), ([2, 4, 5, 4, 2, 0, -1, 0, 2, 4, 5, 4, 2] : List ℚ)[i]? = some a → i < 13 :=
    fun i a h => (List.getElem?_eq_some_iff.1 h).1
  refine wave_of_steps (by norm_num) (by decide +kernel) ?_ ?_ ?_ ⟨1, 5, 9, by omega, by omega, ?_⟩
  · intro i a b ha hb
    have : i < 12 := by have := lt _ _ hb; omega
    interval_cases i <;> simp at ha hb <;> subst ha <;> subst hb <;> norm_num
  · intro i a b c ha hb hc h1 h2
    have : i < 11 := by have := lt _ _ hc; omega
    interval_cases i <;> simp at ha hb hc <;> subst ha <;> subst hb <;> subst hc <;> first | rfl | (exfalso; linarith)
  · intro i a b c ha hb hc h1 h2
    have : i < 11 := by have := lt _ _ hc; omega
    interval_cases i <;> simp at ha hb hc <;> subst ha <;> subst hb <;> subst hc <;> first | rfl | (exfalso; linarith)
  · intro x hx
    simp only [List.mem_cons, List.not_mem_nil, or_false] at hx
    rcases hx with rfl | rfl | rfl
    · exact ⟨4, 5, 4, rfl, rfl, rfl, by norm_num⟩
    · exact ⟨0, -1, 0, rfl, rfl, rfl, by norm_num⟩
    · exact ⟨4, 5, 4, rfl, rfl, rfl, by norm_num⟩

end EMD
end PyEMD
