import Verif.Lemmas.Rounding.Near
import Verif.Lemmas.Hermite
import Verif.Model.RoundedSpline

/-! # Rounding errors of one piece of a spline -/

namespace Verif.Rounding
open Verif.Spec Verif.Spline

variable {fl ca gl : ℝ → ℝ} {u us ε A h v d v' d' x X : ℝ}

theorem quad_near (hf : IsRounding fl u) (hu : u ≤ ε) (hε : ε ≤ 1 / 10000) (hh : 0 < h) (A0 : 0 ≤ A)
    (hv : |v| ≤ A) (hv' : |v'| ≤ A) (hd : |h * d| ≤ A) (hd' : |h * d'| ≤ A) :
    Near ε (A / (h * h)) (121 / 2) 9 (quadR fl h v d v' d') (herm2 h v d v' d') := by
  have e0 : 0 ≤ ε := hf.nonneg.trans hu
  have dm : |d| ≤ 1 * (A / h) := by
    rw [one_mul, le_div_iff₀ hh]
    rw [abs_mul, abs_of_pos hh] at hd
    linarith
  have hhm : |h| ≤ 1 * h := by rw [abs_of_pos hh, one_mul]
  have a1 : Near ε A (25 / 8) 3 (fl (-3 * v)) (-3 * v) :=
    (Near.exact e0 A0 (by norm_num) (by rw [abs_mul]; norm_num; linarith)).round hf hu (by norm_num) (by linarith)
  have a2 : Near ε h (17 / 8) 2 (fl (2 * h)) (2 * h) :=
    (Near.exact e0 hh.le (by norm_num) (by rw [abs_mul]; norm_num; linarith)).round hf hu (by norm_num) (by linarith)
  have a3 : Near ε A (5 / 2) (2 * 1) (fl (2 * h) * d) (2 * h * d) :=
    (a2.mul (Near.exact e0 (by positivity) (by norm_num) dm) (by norm_num) (by linarith)).scale (by field_simp)
  have a4 := a3.round hf hu (l := 37 / 8) (by norm_num) (by linarith)
  have a5 := (a1.sub a4 (by linarith)).round hf hu (l := 103 / 8) (by norm_num) (by linarith)
  have a6 : Near ε A (25 / 8) 3 (fl (3 * v')) (3 * v') :=
    (Near.exact e0 A0 (by norm_num) (by rw [abs_mul]; norm_num; linarith)).round hf hu (by norm_num) (by linarith)
  have a7 := (a5.add a6 (by linarith)).round hf hu (l := 193 / 8) (by norm_num) (by linarith)
  have a8 : Near ε A (9 / 8) 1 (fl (h * d')) (h * d') :=
    (Near.exact e0 A0 (by norm_num) (by linarith)).round hf hu (by norm_num) (by linarith)
  have a9 := (a7.sub a8 (by linarith)).round hf hu (l := 275 / 8) (by norm_num) (by linarith)
  have b1 : Near ε (h * h) (9 / 8) 1 (fl (h * h)) (h * h) :=
    (Near.exact e0 (by positivity) (by norm_num) (by rw [abs_of_pos (by positivity), one_mul])).round hf hu (by norm_num) (by linarith)
  have c1 := (a9.div b1 (by positivity) (l := 51) (by norm_num) (by linarith)).round hf hu (l := 121 / 2) (by norm_num) (by linarith)
  exact c1.sized (by norm_num)

theorem cub_near (hf : IsRounding fl u) (hu : u ≤ ε) (hε : ε ≤ 1 / 10000) (hh : 0 < h) (A0 : 0 ≤ A)
    (hv : |v| ≤ A) (hv' : |v'| ≤ A) (hd : |h * d| ≤ A) (hd' : |h * d'| ≤ A) :
    Near ε (A / (h * h * h)) (95 / 2) 6 (cubR fl h v d v' d') (herm3 h v d v' d') := by
  have e0 : 0 ≤ ε := hf.nonneg.trans hu
  have hhm : |h| ≤ 1 * h := by rw [abs_of_pos hh, one_mul]
  have a1 : Near ε A (17 / 8) 2 (fl (2 * v)) (2 * v) :=
    (Near.exact e0 A0 (by norm_num) (by rw [abs_mul]; norm_num; linarith)).round hf hu (by norm_num) (by linarith)
  have a2 : Near ε A (9 / 8) 1 (fl (h * d)) (h * d) :=
    (Near.exact e0 A0 (by norm_num) (by linarith)).round hf hu (by norm_num) (by linarith)
  have a3 := (a1.add a2 (by linarith)).round hf hu (l := 51 / 8) (by norm_num) (by linarith)
  have a4 : Near ε A (17 / 8) 2 (fl (2 * v')) (2 * v') :=
    (Near.exact e0 A0 (by norm_num) (by rw [abs_mul]; norm_num; linarith)).round hf hu (by norm_num) (by linarith)
  have a5 := (a3.sub a4 (by linarith)).round hf hu (l := 109 / 8) (by norm_num) (by linarith)
  have a6 : Near ε A (9 / 8) 1 (fl (h * d')) (h * d') :=
    (Near.exact e0 A0 (by norm_num) (by linarith)).round hf hu (by norm_num) (by linarith)
  have a7 := (a5.add a6 (by linarith)).round hf hu (l := 167 / 8) (by norm_num) (by linarith)
  have b1 : Near ε (h * h) (9 / 8) 1 (fl (h * h)) (h * h) :=
    (Near.exact e0 (by positivity) (by norm_num) (by rw [abs_of_pos (by positivity), one_mul])).round hf hu (by norm_num) (by linarith)
  have b2 : Near ε (h * h * h) (5 / 2) 1 (fl (fl (h * h) * h)) (h * h * h) :=
    ((b1.mul (Near.exact e0 hh.le (by norm_num) hhm) (l := 11 / 8) (by norm_num) (by linarith)).round hf hu (by norm_num)
      (by linarith)).sized (by norm_num)
  have c1 := (a7.div b2 (by positivity) (l := 41) (by norm_num) (by linarith)).round hf hu (l := 95 / 2) (by norm_num) (by linarith)
  exact c1.sized (by norm_num)

/-- The four stored coefficients. -/
structure Coefs (ε A h v d v' d' c0 c1 c2 c3 : ℝ) : Prop where
  n0 : Near ε A (9 / 8) 1 c0 v
  n1 : Near ε (A / h) (9 / 8) 1 c1 d
  n2 : Near ε (A / (h * h)) (557 / 8) 9 c2 (herm2 h v d v' d')
  n3 : Near ε (A / (h * h * h)) (429 / 8) 6 c3 (herm3 h v d v' d')

theorem coefs_near (hf : IsRounding fl u) (hu : u ≤ ε) (hc : IsRounding ca us) (hus : us ≤ ε) (hε : ε ≤ 1 / 10000) (hh : 0 < h)
    (A0 : 0 ≤ A) (hv : |v| ≤ A) (hv' : |v'| ≤ A) (hd : |h * d| ≤ A) (hd' : |h * d'| ≤ A) :
    Coefs ε A h v d v' d' (ca v) (ca d) (ca (quadR fl h v d v' d')) (ca (cubR fl h v d v' d')) := by
  have e0 : 0 ≤ ε := hf.nonneg.trans hu
  have dm : |d| ≤ 1 * (A / h) := by
    rw [one_mul, le_div_iff₀ hh]
    rw [abs_mul, abs_of_pos hh] at hd
    linarith
  exact ⟨(Near.exact e0 A0 (by norm_num) (by linarith)).round hc hus (by norm_num) (by linarith),
    (Near.exact e0 (by positivity) (by norm_num) dm).round hc hus (by norm_num) (by linarith),
    (quad_near hf hu hε hh A0 hv hv' hd hd').round hc hus (by norm_num) (by linarith),
    (cub_near hf hu hε hh A0 hv hv' hd hd').round hc hus (by norm_num) (by linarith)⟩

/-- The powers of `x` as they enter the sums. -/
structure Powers (ε h x X XX XXX : ℝ) : Prop where
  p1 : Near ε h (7 / 2) (9 / 8) X x
  p2 : Near ε (h * h) (17 / 2) (81 / 64) XX (x * x)
  p3 : Near ε (h * h * h) (31 / 2) (729 / 512) XXX (x * x * x)

theorem square_near (hf : IsRounding fl u) (hu : u ≤ ε) (hε : ε ≤ 1 / 10000) (hx : Near ε h (9 / 4) (9 / 8) X x) :
    Near ε (h * h) (55 / 8) (81 / 64) (fl (X * X)) (x * x) :=
  ((hx.mul hx (l := 87 / 16) (by norm_num) (by linarith)).round hf hu (by norm_num) (by linarith)).sized (by norm_num)

theorem powers_near (hf : IsRounding fl u) (hu : u ≤ ε) (hc : IsRounding ca us) (hus : us ≤ ε) (hε : ε ≤ 1 / 10000)
    (hx : Near ε h (9 / 4) (9 / 8) X x) : Powers ε h x (ca X) (ca (fl (X * X))) (ca (fl (fl (X * X) * X))) := by
  have h2 := square_near hf hu hε hx
  refine ⟨hx.round hc hus (by norm_num) (by linarith), h2.round hc hus (by norm_num) (by linarith), ?_⟩
  have h3 := (h2.mul hx (l := 23 / 2) (by norm_num) (by linarith)).round hf hu (l := 27 / 2) (by norm_num) (by linarith)
  exact (h3.round hc hus (by norm_num) (by linarith)).sized (by norm_num)

variable {c0 c1 c2 c3 XX XXX : ℝ}

theorem value_near (hg : IsRounding gl us) (hus : us ≤ ε) (hε : ε ≤ 1 / 10000) (hh : 0 < h) (hc : Coefs ε A h v d v' d' c0 c1 c2 c3)
    (hx : Powers ε h x X XX XXX) : |valueR gl c0 c1 c2 c3 X XX XXX - seg h v d v' d' x| ≤ 419 * ε * A := by
  have hn := hh.ne'
  have t1 := ((hc.n1.mul hx.p1 (l := 5) (by norm_num) (by linarith)).round hg hus (l := 25 / 4) (by norm_num) (by linarith)).scale
    (show A / h * h = A by field_simp)
  have t2 := ((hc.n2.mul hx.p2 (l := 174) (by norm_num) (by linarith)).round hg hus (l := 186) (by norm_num) (by linarith)).scale
    (show A / (h * h) * (h * h) = A by field_simp)
  have t3 := ((hc.n3.mul hx.p3 (l := 177) (by norm_num) (by linarith)).round hg hus (l := 186) (by norm_num) (by linarith)).scale
    (show A / (h * h * h) * (h * h * h) = A by field_simp)
  have s1 := (hc.n0.add t1 (by linarith)).round hg hus (l := 10) (by norm_num) (by linarith)
  have s2 := (s1.add t2 (by linarith)).round hg hus (l := 210) (by norm_num) (by linarith)
  have s3 := (s2.add t3 (by linarith)).round hg hus (l := 419) (by norm_num) (by linarith)
  exact s3.err

theorem slope_near (hg : IsRounding fl u) (hus : u ≤ ε) (hε : ε ≤ 1 / 10000) (hh : 0 < h) (hc : Coefs ε A h v d v' d' c0 c1 c2 c3)
    (hx : Powers ε h x X XX XXX) : |slopeR fl c1 c2 c3 X XX - segD h v d v' d' x| ≤ 780 * ε * (A / h) := by
  have hn := hh.ne'
  have e0 := hc.n0.e0
  have two : Near ε 1 0 2 (2 : ℝ) 2 := Near.exact e0 zero_le_one (by norm_num) (by norm_num)
  have three : Near ε 1 0 3 (3 : ℝ) 3 := Near.exact e0 zero_le_one (by norm_num) (by norm_num)
  have t1 := (two.mul hc.n2 (l := 140) (by norm_num) (by linarith)).round hg hus (l := 317 / 2) (by norm_num) (by linarith)
  have t2 := ((t1.mul hx.p1 (l := 262) (by norm_num) (by linarith)).round hg hus (l := 283) (by norm_num) (by linarith)).scale
    (show 1 * (A / (h * h)) * h = A / h by field_simp)
  have t3 := (three.mul hc.n3 (l := 161) (by norm_num) (by linarith)).round hg hus (l := 180) (by norm_num) (by linarith)
  have t4 := ((t3.mul hx.p2 (l := 404) (by norm_num) (by linarith)).round hg hus (l := 427) (by norm_num) (by linarith)).scale
    (show 1 * (A / (h * h * h)) * (h * h) = A / h by field_simp)
  have s1 := (hc.n1.add t2 (by linarith)).round hg hus (l := 306) (by norm_num) (by linarith)
  have s2 := (s1.add t4 (by linarith)).round hg hus (l := 780) (by norm_num) (by linarith)
  exact s2.err

/-- The derivative as computed by `RadialFunctionSetKokkos` and `CubicSplineSet`. -/
theorem slope_near' (hf : IsRounding fl u) (hu : u ≤ ε) (hcc : IsRounding ca us) (hg : IsRounding gl us) (hus : us ≤ ε)
    (hε : ε ≤ 1 / 10000) (hh : 0 < h) (hc : Coefs ε A h v d v' d' c0 c1 c2 c3) (hx : Near ε h (9 / 4) (9 / 8) X x) :
    |gl (gl (c1 + gl (c2 * ca (fl (2 * X)))) + gl (c3 * ca (fl (3 * fl (X * X))))) - segD h v d v' d' x| ≤ 780 * ε * (A / h) := by
  have hn := hh.ne'
  have e0 := hc.n0.e0
  have two : Near ε 1 0 2 (2 : ℝ) 2 := Near.exact e0 zero_le_one (by norm_num) (by norm_num)
  have three : Near ε 1 0 3 (3 : ℝ) 3 := Near.exact e0 zero_le_one (by norm_num) (by norm_num)
  have p1 := ((two.mul hx (l := 9 / 2) (by norm_num) (by linarith)).round hf hu (l := 7) (by norm_num) (by linarith)).round hcc hus
    (l := 75 / 8) (by norm_num) (by linarith)
  have p2 := ((three.mul (square_near hf hu hε hx) (l := 21) (by norm_num) (by linarith)).round hf hu (l := 25) (by norm_num)
    (by linarith)).round hcc hus (l := 29) (by norm_num) (by linarith)
  have t2 := ((hc.n2.mul p1 (l := 251) (by norm_num) (by linarith)).round hg hus (l := 272) (by norm_num) (by linarith)).scale
    (show A / (h * h) * (1 * h) = A / h by field_simp)
  have t4 := ((hc.n3.mul p2 (l := 385) (by norm_num) (by linarith)).round hg hus (l := 409) (by norm_num) (by linarith)).scale
    (show A / (h * h * h) * (1 * (h * h)) = A / h by field_simp)
  have s1 := (hc.n1.add t2 (by linarith)).round hg hus (l := 296) (by norm_num) (by linarith)
  have s2 := (s1.add t4 (by linarith)).round hg hus (l := 780) (by norm_num) (by linarith)
  have := s2.err
  unfold segD
  rw [show d + 2 * herm2 h v d v' d' * x + 3 * herm3 h v d v' d' * (x * x) =
    d + herm2 h v d v' d' * (2 * x) + herm3 h v d v' d' * (3 * (x * x)) by ring]
  exact this

end Verif.Rounding
