import Verif.Props.MatlabReversal
import Verif.Props.Wave

/-!
# C166: `EMD_matlab` on a wave with equal peaks
-/

set_option linter.unusedSectionVars false

namespace PyEMD
namespace Matlab
open EMD (Extrema SplineKind timeArr sAt reported isPos isNeg Detected ConstAll)
open EMD.Spec PyEMD.Spec

variable {K : Type} [Field K] [LinearOrder K] [IsStrictOrderedRing K] [FloorRing K]

/-- The envelopes of a wave are its highest and its lowest value. -/
theorem extract_wave {sp : SciPy K} (hsp : AcceptsAll sp) (hc : ConstAll sp) {cfg : Cfg K} (hf : cfg.convert = id) (hnb : 1 ≤ cfg.nbsym)
    (hk : Known cfg.splineKind) {S : List K} {lo hi : K} (hw : Detected S lo hi) (hx : ¬FlatEnds S) :
    extractMaxMinSpline sp cfg (timeArr S.length) S = .ok (some (List.replicate S.length hi, List.replicate S.length lo)) := by
  have he := EMD.findExtremaSimple_eq (timeArr S.length : List K) S (EMD.timeArr_length _)
  have h3 := hw.three
  obtain ⟨nb, hnb'⟩ : ∃ nb : Nat, cfg.nbsym = (nb : Int) := ⟨cfg.nbsym.toNat, by omega⟩
  obtain ⟨kmax, kmin, s0, s1, g0, g1, hp, hE⟩ := EMD.C81_mirror_rule nb (by omega) S (timeArr S.length) rfl _ he (by simpa using h3)
  obtain ⟨kmax', kmin', hp', gx, gn⟩ := EMD.C21_knots (nb : Int) (by omega) S (timeArr S.length) rfl _ he (by simpa using h3)
  rw [hp] at hp'
  injection hp' with hp'
  obtain ⟨rfl, rfl⟩ := Prod.mk.inj hp'
  obtain ⟨vx, vn⟩ := EMD.knots_values hw (List.mem_of_mem_head? g0) (List.mem_of_mem_getLast? g1)
    (by
      intro p hp
      obtain ⟨i, hi, h⟩ := List.mem_map.1 (List.of_mem_zip hp).2
      rw [← h]; exact hw.maxima i hi)
    (by
      intro p hp
      obtain ⟨i, hi, h⟩ := List.mem_map.1 (List.of_mem_zip hp).2
      rw [← h]; exact hw.minima i hi) hE
  have hk' : cfg.splineKind ≠ .unknown := by intro h; rw [h] at hk; exact hk
  obtain ⟨t1, e1⟩ := EMD.splinePoints_const hsp hc hk' gx hi vx
  obtain ⟨t2, e2⟩ := EMD.splinePoints_const hsp hc hk' gn lo vn
  unfold extractMaxMinSpline
  have he' : EMD.findExtrema .simple (timeArr S.length) S = _ := he
  have hpp := preparePoints_of_emd (nb : Int) S rfl he' hp
  rw [findExtrema_same hx, he', hf, hnb']
  simp only [EMD.ok_bind]
  rw [if_neg (by simpa using h3), hpp]
  simp only [EMD.ok_bind]
  rw [splinePoints_emd sp hk gx.covers, splinePoints_emd sp hk gn.covers, e1, e2]
  rfl

theorem wave_not_flat {S : List K} {lo hi : K} (h : Wave S lo hi) : ¬FlatEnds S := by
  rintro ⟨a, c, h0, h1, -, -⟩
  exact h.start (h0.trans h1.symm)

theorem countExt_wave {S : List K} {lo hi : K} (h : Wave S lo hi) : ∃ e z, countExt (timeArr S.length) S = .ok (e, z) ∧ 2 < e := by
  have he := EMD.findExtremaSimple_eq (timeArr S.length : List K) S (EMD.timeArr_length _)
  have he' : EMD.findExtrema .simple (timeArr S.length) S = _ := he
  have h3 := h.detected.three
  unfold countExt
  rw [findExtrema_same (wave_not_flat h), he']
  refine ⟨_, _, rfl, ?_⟩
  simp only [List.length_map]
  omega

/-- A constant has no extrema. -/
theorem countExt_const (n : Nat) (m : K) : ∃ z, countExt (timeArr n : List K) (List.replicate n m) = .ok (0, z) := by
  have hc : ∀ a ∈ List.replicate n m, ∀ b ∈ List.replicate n m, a = b := by
    intro a ha b hb
    rw [List.eq_of_mem_replicate ha, List.eq_of_mem_replicate hb]
  have e1 : reported isPos isNeg (List.replicate n m) = [] := Jit.reported_const (by simp [isPos]) (by simp [isNeg]) hc
  have e2 : minima (List.replicate n m) = [] := by
    rw [List.eq_nil_iff_forall_not_mem]
    intro i hi
    rcases ((minima_spec _).2 i).1 hi with h | h
    · have := (EMD.mem_jumps.1 h).2.2.2
      rw [Jit.dAt_const hc] at this
      simp [isPos] at this
    · obtain ⟨s, e, -, -, h, -⟩ := EMD.mem_flats.1 h
      rw [Jit.dAt_const hc] at h
      simp [isPos] at h
  unfold countExt findExtrema
  rw [extremaIdx_all]
  rw [e1, e2]
  exact ⟨_, rfl⟩

theorem bcast_replicate (f : K → K → K) (n : Nat) (a b : K) : bcast f (List.replicate n a) (List.replicate n b) = .ok (List.replicate n (f a b)) := by
  unfold bcast
  rw [if_pos (by simp)]
  simp

theorem bcast_level (S : List K) (m : K) : bcast (fun a b => a - b) S (List.replicate S.length m) = .ok (S.map (fun x => x - m)) := by
  unfold bcast
  rw [if_pos (by simp)]
  congr 1
  apply List.ext_getElem
  · simp
  · intro i h1 h2
    simp

/-! ## Sifting -/

/-- The default rule accepts a signal with envelopes `hi` and `lo`. -/
def Accepted (cfg : Cfg K) (S : List K) (lo hi : K) : Prop :=
  cfg.FIXE = 0 ∧ cfg.FIXE_H = 0 ∧ (∃ e z, countExt (timeArr S.length) S = .ok (e, z) ∧ |e - z| < 2) ∧
    ¬cfg.stop1 < |(hi + lo) / 2| / ((hi - lo) / 2) ∧ ¬cfg.stop2 < |(hi + lo) / 2| / ((hi - lo) / 2)

theorem stopSifting_wave (cfg : Cfg K) (h3 : 0 ≤ cfg.stop3 ∧ cfg.stop3 < 1) {n : Nat} (hn : 1 ≤ n) {lo hi : K} (hlt : lo < hi) {e : Int} (he : 2 < e) :
    stopSifting cfg (List.replicate n hi) (List.replicate n lo) (List.replicate n ((hi + lo) / 2)) e =
      .ok (decide (¬cfg.stop1 < |(hi + lo) / 2| / ((hi - lo) / 2) ∧ ¬cfg.stop2 < |(hi + lo) / 2| / ((hi - lo) / 2))) := by
  have ha : 0 < (hi - lo) / 2 := by linarith
  unfold stopSifting
  rw [bcast_replicate]
  simp only [EMD.ok_bind, List.map_replicate, List.zipWith_replicate, Nat.min_self, pure, Except.pure]
  have hp : (pyAbs (hi - lo) / lit 2 : K) = (hi - lo) / 2 := by
    rw [pyAbs_eq, abs_of_pos (by linarith), lit_eq]
    norm_num
  have hd : ∀ st : K, divGt (pyAbs ((hi + lo) / 2)) ((hi - lo) / 2) st = decide (st < |(hi + lo) / 2| / ((hi - lo) / 2)) := by
    intro st
    unfold divGt
    rw [if_neg (by simpa [lit_zero] using ha.ne'), pyAbs_eq]
  have hn0 : (0 : K) < n := by exact_mod_cast hn
  rw [hp]
  simp only [hd, List.length_replicate]
  by_cases c1 : cfg.stop1 < |(hi + lo) / 2| / ((hi - lo) / 2)
  · have : divGt (lit (((List.replicate n (decide (cfg.stop1 < |(hi + lo) / 2| / ((hi - lo) / 2)))).filter id).length : ℚ)) (lit (n : ℚ)) cfg.stop3 = true := by
      unfold divGt
      simp only [c1, decide_true, List.filter_replicate, id, if_true, List.length_replicate, lit_eq, Rat.cast_natCast]
      rw [if_neg (by simpa [lit_zero] using hn0.ne'), div_self hn0.ne']
      simpa using h3.2
    rw [this]
    simp [c1]
  · have : divGt (lit (((List.replicate n (decide (cfg.stop1 < |(hi + lo) / 2| / ((hi - lo) / 2)))).filter id).length : ℚ)) (lit (n : ℚ)) cfg.stop3 = false := by
      unfold divGt
      simp only [c1, decide_false, List.filter_replicate, id, lit_eq]
      simp
      exact fun _ => h3.1
    rw [this]
    have hany : ∀ b : Bool, (List.replicate n b).any id = b := by
      intro b
      obtain ⟨n, rfl⟩ : ∃ k, n = k + 1 := ⟨n - 1, by omega⟩
      cases b <;> simp
    rw [hany]
    by_cases c2 : cfg.stop2 < |(hi + lo) / 2| / ((hi - lo) / 2) <;> simp [c1, c2, he]

/-- One pass that finds the envelopes `hi` and `lo`. -/
theorem siftBody_wave (sp : SciPy K) (cfg : Cfg K) (h3 : 0 ≤ cfg.stop3 ∧ cfg.stop3 < 1) (hf0 : 0 ≤ cfg.FIXE) (hm1 : 1 ≤ cfg.maxIteration) {n : Nat}
    (hn : 1 ≤ n) {lo hi : K} (hlt : lo < hi) {s : Sift K} {x : List K} {e z e' z' : Int} (hs : countExt (timeArr n) s.imf = .ok (e, z)) (he : 2 < e)
    (hb : bcast (fun a b => a - b) s.imf (s.mean.map (fun m => cfg.reduceScale * m)) = .ok x)
    (hx : extractMaxMinSpline sp cfg (timeArr n) x = .ok (some (List.replicate n hi, List.replicate n lo)))
    (hs' : countExt (timeArr n) x = .ok (e', z')) (he' : 2 < e') :
    ∃ s' : Sift K, s'.n = s.n + 1 ∧ s'.imf = x ∧ s'.mean = List.replicate n ((hi + lo) / 2) ∧
      ((siftBody sp cfg (timeArr n) s = .ok (.cont s') ∧ ¬(cfg.FIXE = 0 ∧ cfg.FIXE_H = 0 ∧ |e' - z'| < 2 ∧
          ¬cfg.stop1 < |(hi + lo) / 2| / ((hi - lo) / 2) ∧ ¬cfg.stop2 < |(hi + lo) / 2| / ((hi - lo) / 2))) ∨
        ∃ why, why ≠ .trend ∧ siftBody sp cfg (timeArr n) s = .ok (.brk s' why) ∧ (s.n = 0 → cfg.FIXE = 0 ∧ cfg.FIXE_H = 0 ∧ |e' - z'| < 2 ∧
          ¬cfg.stop1 < |(hi + lo) / 2| / ((hi - lo) / 2) ∧ ¬cfg.stop2 < |(hi + lo) / 2| / ((hi - lo) / 2))) := by
  have hmean : (List.replicate n (hi + lo)).map (fun x => (lit (1 / 2) : K) * x) = List.replicate n ((hi + lo) / 2) := by
    rw [List.map_replicate]
    congr 1
    rw [lit_eq]
    push_cast
    ring
  have hbody : siftBody sp cfg (timeArr n) s = (if s.n + 1 > cfg.maxIteration then
        .ok (.brk { s with n := s.n + 1, extNo := e, imf := x, mean := List.replicate n ((hi + lo) / 2) } .tooMany)
      else if cfg.FIXE ≠ 0 then
        if s.n + 1 ≥ cfg.FIXE + 1 then .ok (.brk { s with n := s.n + 1, extNo := e, imf := x, mean := List.replicate n ((hi + lo) / 2) } .fixe)
        else .ok (.cont { s with n := s.n + 1, extNo := e, imf := x, mean := List.replicate n ((hi + lo) / 2) })
      else if cfg.FIXE_H ≠ 0 then
        if s.n + 1 = 1 then .ok (.cont { s with n := s.n + 1, extNo := e', imf := x, mean := List.replicate n ((hi + lo) / 2) })
        else if (if |e' - z'| > 1 then 0 else s.nh + 1) ≥ cfg.FIXE_H then
            .ok (.brk { n := s.n + 1, nh := if |e' - z'| > 1 then 0 else s.nh + 1, extNo := e', imf := x, mean := List.replicate n ((hi + lo) / 2) } .fixeH)
          else .ok (.cont { n := s.n + 1, nh := if |e' - z'| > 1 then 0 else s.nh + 1, extNo := e', imf := x, mean := List.replicate n ((hi + lo) / 2) })
      else if (¬cfg.stop1 < |(hi + lo) / 2| / ((hi - lo) / 2) ∧ ¬cfg.stop2 < |(hi + lo) / 2| / ((hi - lo) / 2)) ∧ |e' - z'| < 2 then
          .ok (.brk { s with n := s.n + 1, extNo := e', imf := x, mean := List.replicate n ((hi + lo) / 2) } .converged)
        else .ok (.cont { s with n := s.n + 1, extNo := e', imf := x, mean := List.replicate n ((hi + lo) / 2) })) := by
    unfold siftBody
    simp only [hs, EMD.ok_bind]
    rw [if_pos he, hb]
    simp only [EMD.ok_bind, hx]
    rw [bcast_replicate]
    simp only [EMD.ok_bind, hmean, hs', stopSifting_wave cfg h3 hn hlt he', Bool.and_eq_true, decide_eq_true_eq]
    rfl
  rw [hbody]
  split
  · exact ⟨_, rfl, rfl, rfl, Or.inr ⟨_, by simp, rfl, fun h => by omega⟩⟩
  split
  · split
    · exact ⟨_, rfl, rfl, rfl, Or.inr ⟨_, by simp, rfl, fun h => by omega⟩⟩
    · exact ⟨_, rfl, rfl, rfl, Or.inl ⟨rfl, fun h => by omega⟩⟩
  split
  · split
    · exact ⟨_, rfl, rfl, rfl, Or.inl ⟨rfl, fun h => by omega⟩⟩
    generalize (if |e' - z'| > 1 then 0 else s.nh + 1) = nh
    split
    · exact ⟨_, rfl, rfl, rfl, Or.inr ⟨_, by simp, rfl, fun h => by omega⟩⟩
    · exact ⟨_, rfl, rfl, rfl, Or.inl ⟨rfl, fun h => by omega⟩⟩
  have f0 : cfg.FIXE = 0 := by omega
  have h0 : cfg.FIXE_H = 0 := by omega
  split
  · rename_i h
    exact ⟨_, rfl, rfl, rfl, Or.inr ⟨_, by simp, rfl, fun _ => ⟨f0, h0, h.2, h.1⟩⟩⟩
  · rename_i h
    exact ⟨_, rfl, rfl, rfl, Or.inl ⟨rfl, fun g => h ⟨g.2.2.2, g.2.2.1⟩⟩⟩

/-- What the settings must satisfy: no conversion, full steps, a known spline, at least two passes. -/
structure Usual (cfg : Cfg K) : Prop where
  convert : cfg.convert = id
  nbsym : 1 ≤ cfg.nbsym
  kind : Known cfg.splineKind
  reduce : cfg.reduceScale = 1
  fixe : 0 ≤ cfg.FIXE
  passes : 2 ≤ cfg.MAX_ITERATION
  iterations : 1 ≤ cfg.maxIteration
  stop3 : 0 ≤ cfg.stop3 ∧ cfg.stop3 < 1

/-- Once the level is gone nothing changes. -/
theorem siftLoop_settled {sp : SciPy K} (hsp : AcceptsAll sp) (hc : ConstAll sp) {cfg : Cfg K} (hu : Usual cfg) {C : List K} {a : K} (hw : Wave C (-a) a)
    (hn : 1 ≤ C.length) : ∀ (fuel : Nat) (s : Sift K), s.imf = C → s.mean = List.replicate C.length 0 → 1 ≤ s.n → 1 ≤ fuel → cfg.MAX_ITERATION - s.n < fuel →
    ∃ s' why, siftLoop sp cfg (timeArr C.length) fuel s = .ok (s', why) ∧ s'.imf = C ∧ why ≠ .trend := by
  intro fuel
  induction fuel with
  | zero =>
    intro s h1 h2 h3 h4
    omega
  | succ fuel ih =>
    intro s h1 h2 h3 h4 h5
    rw [siftLoop]
    split
    · obtain ⟨e, z, hs, he⟩ := countExt_wave hw
      obtain ⟨s', g1, g2, g3, g⟩ := siftBody_wave sp cfg hu.stop3 hu.fixe hu.iterations hn hw.lt (s := s) (by rw [h1]; exact hs) he
        (by rw [h1, h2, List.map_replicate, mul_zero, bcast_level]) (by simpa using extract_wave hsp hc hu.convert hu.nbsym hu.kind hw.detected (wave_not_flat hw))
        (by simpa using hs) he
      rcases g with ⟨g, -⟩ | ⟨why, hne, g, -⟩
      · rw [g]
        exact ih s' (by rw [g2]; simp) (by rw [g3]; simp) (by omega) (by omega) (by omega)
      · rw [g]
        exact ⟨s', why, rfl, by rw [g2]; simp, hne⟩
    · exact ⟨s, .limit, rfl, h1, by simp⟩

theorem wave_length {S : List K} {lo hi : K} (h : Wave S lo hi) : 1 ≤ S.length := by
  by_contra hn
  have : S = [] := List.eq_nil_of_length_eq_zero (by omega)
  subst this
  exact h.start rfl

theorem siftLoop_first {sp : SciPy K} (hsp : AcceptsAll sp) (hc : ConstAll sp) {cfg : Cfg K} (hu : Usual cfg) {S : List K} {lo hi : K} (hw : Wave S lo hi)
    (e0 : Int) : ∃ s' why, siftLoop sp cfg (timeArr S.length) (cfg.MAX_ITERATION.toNat + 1)
      { n := 0, nh := 0, extNo := e0, imf := S, mean := vzeros S.length } = .ok (s', why) ∧ why ≠ .trend ∧
      (¬Accepted cfg S lo hi → s'.imf = S.map (fun x => x - (hi + lo) / 2)) ∧ (Accepted cfg S lo hi → s'.imf = S) := by
  have hn := wave_length hw
  obtain ⟨e, z, hs, he⟩ := countExt_wave hw
  have hp := hu.passes
  obtain ⟨s', g1, g2, g3, g⟩ := siftBody_wave sp cfg hu.stop3 hu.fixe hu.iterations hn hw.lt
    (s := { n := 0, nh := 0, extNo := e0, imf := S, mean := vzeros S.length }) (x := S) hs he
    (by
      have := bcast_level S (0 : K)
      simpa [vzeros, lit_zero] using this) (extract_wave hsp hc hu.convert hu.nbsym hu.kind hw.detected (wave_not_flat hw)) hs he
  have hA : Accepted cfg S lo hi ↔ (cfg.FIXE = 0 ∧ cfg.FIXE_H = 0 ∧ |e - z| < 2 ∧ ¬cfg.stop1 < |(hi + lo) / 2| / ((hi - lo) / 2) ∧
      ¬cfg.stop2 < |(hi + lo) / 2| / ((hi - lo) / 2)) := by
    constructor
    · rintro ⟨a1, a2, ⟨e1, z1, h1, h2⟩, a3⟩
      rw [hs] at h1
      injection h1 with h1
      obtain ⟨rfl, rfl⟩ := Prod.mk.inj h1
      exact ⟨a1, a2, h2, a3⟩
    · rintro ⟨a1, a2, h2, a3⟩
      exact ⟨a1, a2, ⟨e, z, hs, h2⟩, a3⟩
  rw [siftLoop, if_pos (by simp; omega)]
  rcases g with ⟨g, hna⟩ | ⟨why, hne, g, ha⟩
  · rw [g]
    simp only [EMD.ok_bind]
    rw [← hA] at hna
    have hw' := hw.shift ((hi + lo) / 2)
    have hw2 : Wave (S.map (fun x => x - (hi + lo) / 2)) (-((hi - lo) / 2)) ((hi - lo) / 2) := by
      have e1 : lo - (hi + lo) / 2 = -((hi - lo) / 2) := by ring
      have e2 : hi - (hi + lo) / 2 = (hi - lo) / 2 := by ring
      rwa [e1, e2] at hw'
    have hl : (S.map (fun x => x - (hi + lo) / 2)).length = S.length := by simp
    obtain ⟨e', z', hs', he'⟩ := countExt_wave hw2
    have hx' := extract_wave hsp hc hu.convert hu.nbsym hu.kind hw2.detected (wave_not_flat hw2)
    rw [hl] at hs' hx'
    obtain ⟨q, hk⟩ : ∃ q, cfg.MAX_ITERATION.toNat = q + 1 := ⟨cfg.MAX_ITERATION.toNat - 1, by omega⟩
    obtain ⟨s2, k1, k2, k3, k⟩ := siftBody_wave sp cfg hu.stop3 hu.fixe hu.iterations hn hw2.lt (s := s')
      (x := S.map (fun x => x - (hi + lo) / 2)) (by rw [g2]; exact hs) he
      (by rw [g2, g3, hu.reduce, List.map_replicate, one_mul, bcast_level]) hx' hs' he'
    rw [hk, siftLoop, if_pos (by rw [g1]; simp; omega)]
    rcases k with ⟨k, -⟩ | ⟨why, hne, k, -⟩
    · rw [k]
      simp only [EMD.ok_bind]
      obtain ⟨s3, why, j1, j2, j3⟩ := siftLoop_settled hsp hc hu hw2 (by rw [hl]; exact hn) (cfg.MAX_ITERATION.toNat - 1) s2 k2
        (by rw [k3, hl]; congr 1; ring) (by rw [k1, g1]; simp) (by omega) (by rw [k1, g1]; simp; omega)
      rw [hl] at j1
      refine ⟨s3, why, ?_, j3, fun _ => j2, fun h => absurd h hna⟩
      rw [hk, Nat.add_sub_cancel] at j1
      exact j1
    · rw [k]
      exact ⟨s2, why, rfl, hne, fun _ => k2, fun h => absurd h hna⟩
  · rw [g]
    exact ⟨s', why, rfl, hne, fun h => absurd (hA.2 (ha rfl)) h, fun _ => g2⟩

/-- A constant ends the decomposition. -/
theorem siftLoop_const (sp : SciPy K) (cfg : Cfg K) (hp : 1 ≤ cfg.MAX_ITERATION) (n : Nat) (m : K) (e0 : Int) :
    ∃ s', siftLoop sp cfg (timeArr n) (cfg.MAX_ITERATION.toNat + 1) { n := 0, nh := 0, extNo := e0, imf := List.replicate n m, mean := vzeros n } =
      .ok (s', .trend) ∧ s'.imf = List.replicate n m := by
  obtain ⟨z, hz⟩ := countExt_const n m
  rw [siftLoop, if_pos (by simp; omega)]
  unfold siftBody
  rw [hz]
  exact ⟨_, rfl, rfl⟩

theorem finish_two (S : List K) (c : K) (st : State K) (h : st.IMF = [(0, S.map (fun x => x - c)), (1, List.replicate S.length c)]) (hn : st.imfNo = 2) :
    ∃ R, finish S (lit 1) st = .ok R ∧ R.imfNo = 2 ∧ R.IMF = [(0, S.map (fun x => x - c)), (1, List.replicate S.length c)] := by
  have hres : vsub S (sumRows S.length [S.map (fun x => x - c), List.replicate S.length c]) = vzeros S.length := by
    unfold sumRows
    apply List.ext_getElem
    · simp [vsub, vadd, vzeros]
    · intro i g1 g2
      simp [vsub, vadd, vzeros, lit_zero]
  have hs : ¬(lit (1 / 10000000000) : K) < npSum ((vzeros S.length : List K).map pyAbs) := by
    have : npSum ((vzeros S.length : List K).map pyAbs) = 0 := by
      rw [npSum_eq]
      simp [vzeros, lit_zero, pyAbs_eq]
    rw [this, lit_eq, not_lt]
    norm_num
  have hg : dictGets st.IMF (List.range st.imfNo) = .ok [S.map (fun x => x - c), List.replicate S.length c] := by
    rw [h, hn]
    rfl
  unfold finish
  rw [hg]
  simp only [EMD.ok_bind]
  rw [if_pos (by simp)]
  refine ⟨_, rfl, ?_, ?_⟩
  · simp only [hres, hs, decide_false, Bool.false_eq_true, if_false, hn]
  · simp only [hres, hs, decide_false, Bool.false_eq_true, if_false, h]
    simp [lit_one]

theorem two_rounds {sp : SciPy K} (hsp : AcceptsAll sp) (hc : ConstAll sp) {cfg : Cfg K} (hu : Usual cfg) {S : List K} {lo hi : K} (hw : Wave S lo hi)
    (fuel : Nat) (hf : 2 ≤ fuel) (mi : Int) (hmi : mi ≠ 2) :
    ∃ (R : Result K) (c : K), emd fuel sp cfg S none mi = .ok R ∧ R.imfNo = 2 ∧ R.IMF = [(0, S.map (fun x => x - c)), (1, S.map (fun _ => c))] ∧
      (¬Accepted cfg S lo hi → c = (hi + lo) / 2) ∧ (Accepted cfg S lo hi → c = 0) := by
  obtain ⟨s1, why, h1, hne, ha, hb⟩ := siftLoop_first hsp hc hu hw 0
  obtain ⟨c, hc1, hcn, hca⟩ : ∃ c : K, s1.imf = S.map (fun x => x - c) ∧ (¬Accepted cfg S lo hi → c = (hi + lo) / 2) ∧ (Accepted cfg S lo hi → c = 0) := by
    by_cases h : Accepted cfg S lo hi
    · exact ⟨0, by rw [hb h]; simp, fun g => absurd h g, fun _ => rfl⟩
    · exact ⟨_, ha h, fun _ => rfl, fun g => absurd g h⟩
  obtain ⟨s2, h2, hc2⟩ := siftLoop_const sp cfg (by have := hu.passes; omega) S.length c s1.extNo
  have hS : S.map (fun x => x / (lit 1 : K)) = S := by simp [lit_one]
  have hT : ((List.range S.length).map (fun k : Nat => (lit (k : ℚ) : K))) = timeArr S.length := by
    unfold timeArr
    apply List.map_congr_left
    intro k _
    rw [lit_eq]
    simp
  have hv : vsub S (vzeros S.length) = S := EMD.vsub_vzeros (by intro x; simp [lit_zero]) S
  have hr : vsub S (S.map (fun x => x - c)) = List.replicate S.length c := by
    apply List.ext_getElem
    · simp [vsub]
    · intro i g1 g2
      simp [vsub]
  obtain ⟨k, rfl⟩ : ∃ k, fuel = k + 2 := ⟨fuel - 2, by omega⟩
  unfold emd
  simp only [Option.getD_none, hT, hS]
  rw [if_neg (by rw [EMD.timeArr_length]; simp)]
  rw [emdLoop]
  unfold emdRound
  have hl1 : (vzeros S.length : List K).length = S.length := by simp [vzeros]
  simp only [hl1, hv, h1, EMD.ok_bind, hc1, pure, Except.pure]
  simp only [ne_eq, not_true_eq_false, if_false, EMD.ok_bind]
  have hfin : (why == SiftEnd.trend || decide (((0 + 1 : Nat) : Int) = mi - 1)) = false := by
    rw [Bool.or_eq_false_iff]
    constructor
    · simpa using hne
    · simp; omega
  simp only [hfin, Bool.false_eq_true, if_false]
  rw [emdLoop]
  unfold emdRound
  simp only [List.length_map, hr, h2, EMD.ok_bind, hc2, pure, Except.pure]
  simp only [ne_eq, not_true_eq_false, if_false, EMD.ok_bind, beq_self_eq_true, Bool.true_or, if_true]
  have hd : dictSet (dictSet [] 0 (S.map (fun x => x - c))) (0 + 1) (List.replicate S.length c) =
      [(0, S.map (fun x => x - c)), (1, List.replicate S.length c)] := rfl
  obtain ⟨R, r1, r2, r3⟩ := finish_two S c
    { Res := List.replicate S.length c, imf := List.replicate S.length c,
      IMF := dictSet (dictSet [] 0 (S.map (fun x => x - c))) (0 + 1) (List.replicate S.length c), EXT := dictSet (dictSet [] 0 s1.extNo) (0 + 1) s2.extNo,
      ITER := dictSet (dictSet [] 0 s1.n) (0 + 1) s2.n, imfNo := 0 + 1 + 1, extNo := s2.extNo, ends := [] ++ [why] ++ [SiftEnd.trend] } hd rfl
  exact ⟨R, c, r1, r2, by rw [r3, List.map_const'], hcn, hca⟩

/-- **C166 (a wave with equal peaks).**  `EMD_matlab` splits a wave whose tops all reach `hi` and whose bottoms all reach `lo` into the wave around
zero and the level half way between them: with a fixed number of passes, or when the level is not small against the amplitude. -/
theorem C166_wave (fuel : Nat) (hf : 2 ≤ fuel) (sp : SciPy K) (hsp : AcceptsAll sp) (hc : ConstAll sp) (cfg : Cfg K) (hu : Usual cfg)
    (S : List K) (lo hi : K) (hw : Wave S lo hi) (mi : Int) (hmi : mi ≠ 2)
    (h : cfg.FIXE ≠ 0 ∨ cfg.FIXE_H ≠ 0 ∨ cfg.stop1 * ((hi - lo) / 2) < |(hi + lo) / 2| ∨ cfg.stop2 * ((hi - lo) / 2) < |(hi + lo) / 2|) :
    ∃ R, emd fuel sp cfg S none mi = .ok R ∧ R.IMF = [(0, S.map (fun x => x - (hi + lo) / 2)), (1, S.map (fun _ => (hi + lo) / 2))] := by
  obtain ⟨R, c, h1, -, h2, h3, -⟩ := two_rounds hsp hc hu hw fuel hf mi hmi
  have ha : 0 < (hi - lo) / 2 := by linarith [hw.lt]
  have := h3 (by
    rintro ⟨a1, a2, -, a3, a4⟩
    rw [lt_div_iff₀ ha] at a3 a4
    rcases h with h | h | h | h
    · exact h a1
    · exact h a2
    · exact a3 h
    · exact a4 h)
  subst this
  exact ⟨R, h1, h2⟩

/-- **C166 (every wave).**  Whatever the settings, the first row is the wave itself up to a constant and the second row is that constant: the middle
of the wave, or zero; zero only if no number of passes is fixed and the middle is small against the amplitude. -/
theorem C166_every_wave (fuel : Nat) (hf : 2 ≤ fuel) (sp : SciPy K) (hsp : AcceptsAll sp) (hc : ConstAll sp) (cfg : Cfg K) (hu : Usual cfg)
    (S : List K) (lo hi : K) (hw : Wave S lo hi) (mi : Int) (hmi : mi ≠ 2) :
    ∃ (R : Result K) (c : K), emd fuel sp cfg S none mi = .ok R ∧ R.IMF = [(0, S.map (fun x => x - c)), (1, S.map (fun _ => c))] ∧
      (c = (hi + lo) / 2 ∨ c = 0 ∧ cfg.FIXE = 0 ∧ cfg.FIXE_H = 0 ∧ |(hi + lo) / 2| ≤ cfg.stop1 * ((hi - lo) / 2) ∧
        |(hi + lo) / 2| ≤ cfg.stop2 * ((hi - lo) / 2)) := by
  obtain ⟨R, c, h1, -, h2, h3, h4⟩ := two_rounds hsp hc hu hw fuel hf mi hmi
  refine ⟨R, c, h1, h2, ?_⟩
  by_cases h : Accepted cfg S lo hi
  · right
    have ha : 0 < (hi - lo) / 2 := by linarith [hw.lt]
    obtain ⟨a1, a2, -, a3, a4⟩ := id h
    rw [lt_div_iff₀ ha, not_lt] at a3 a4
    exact ⟨h4 h, a1, a2, a3, a4⟩
  · exact Or.inl (h3 h)

theorem default_usual : Usual (Cfg.default : Cfg K) where
  convert := rfl
  nbsym := by simp [Cfg.default]
  kind := trivial
  reduce := by simp [Cfg.default, lit_one]
  fixe := by simp [Cfg.default]
  passes := by simp [Cfg.default]
  iterations := by simp [Cfg.default]
  stop3 := by
    simp only [Cfg.default, lit_eq]
    constructor <;> norm_num

/-- The default `EMD_matlab` with SciPy's cubic spline on a zigzag whose level is more than a twentieth of its amplitude. -/
theorem C166_zigzag (n : Nat) (hn : 5 ≤ n) (c a : K) (ha : 0 < a) (hc : a < 20 * |c|) :
    ∃ R, emd 2 Scipy.scipy Cfg.default (EMD.zigzag n c a) none (-1) = .ok R ∧
      R.IMF = [(0, (EMD.zigzag n c a).map (fun x => x - c)), (1, (EMD.zigzag n c a).map (fun _ => c))] := by
  have h := C166_wave 2 le_rfl Scipy.scipy Scipy.C98_accepts EMD.scipy_const Cfg.default default_usual _ _ _ (EMD.zigzag_wave n hn c a ha) (-1) (by decide)
    (by
      right; right; left
      have e1 : (c + a + (c - a)) / 2 = c := by ring
      have e2 : (c + a - (c - a)) / 2 = a := by ring
      rw [e1, e2]
      simp only [Cfg.default, lit_eq]
      push_cast
      linarith)
  have e1 : (c + a + (c - a)) / 2 = c := by ring
  rwa [e1] at h

example := C166_zigzag (K := ℚ) 5 (by decide) 7 2 (by decide) (by decide +kernel)

/-- A fixed number of passes. -/
example := C166_wave 2 le_rfl (Scipy.scipy : SciPy ℚ) Scipy.C98_accepts EMD.scipy_const { Cfg.default with FIXE := 2 }
  ⟨rfl, by decide, trivial, by decide +kernel, by decide, by decide, by decide, by decide +kernel⟩ _ _ _ (EMD.zigzag_wave 6 (by decide) (1 / 100) 1 (by decide)) (-1)
  (by decide) (Or.inl (by decide))

/-- **Both cases of `C166_every_wave` happen:** the default rule leaves a small level in the wave. -/
theorem C166_small_level : ∃ (S : List ℚ) (R : Result ℚ), Wave S (1 / 100 - 1) (1 / 100 + 1) ∧
    emd 2 EMD.Spec.strictLinSciPy Cfg.default S none (-1) = .ok R ∧ R.IMF = [(0, S), (1, S.map (fun _ => (0 : ℚ)))] := by
  have h : okWith (fun R : Result ℚ => decide (R.IMF = [(0, EMD.zigzag 6 (1 / 100 : ℚ) 1), (1, (EMD.zigzag 6 (1 / 100 : ℚ) 1).map (fun _ => (0 : ℚ)))]))
      (emd 2 EMD.Spec.strictLinSciPy (Cfg.default : Cfg ℚ) (EMD.zigzag 6 (1 / 100) 1) none (-1)) = true := by decide +kernel
  obtain ⟨R, h1, h⟩ := okWith_iff.1 h
  exact ⟨_, R, EMD.zigzag_wave 6 (by decide) _ _ (by decide), h1, of_decide_eq_true h⟩

end Matlab
end PyEMD
