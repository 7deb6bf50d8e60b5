import Verif.Spec.NumAccuracy
import Mathlib.Tactic.Linarith
import Mathlib.Tactic.Ring
import Mathlib.Tactic.Positivity

/-! # Arithmetics on real numbers that round every result are accurate -/

namespace Verif.NumSpec

variable {fl : ℝ → ℝ} {δ : ℝ}

theorem Close.refl (h : 0 < δ) (x : ℝ) : Close δ x x := fun _ => by
  rw [sub_self, abs_zero]
  positivity

/-- An inner product, added from left to right. -/
theorem dot_err (h0 : 0 < δ) (h1 : δ ≤ 1) (hfl : ∀ x, Close δ (fl x) x) (ps : List (ℝ × ℝ)) {s t a B : ℝ} (ha : 0 ≤ a) (hst : |s - t| ≤ a * δ * B)
    (hB : |t| + (ps.map fun p => |p.1 * p.2|).sum + 1 ≤ B) (hg : 2 ^ ps.length * (a + 4) * B ≤ 1 / δ) :
    |ps.foldl (fun s p => fl (s + fl (p.1 * p.2))) s - (t + (ps.map fun p => p.1 * p.2).sum)| ≤ δ * (2 ^ ps.length * (a + 4) * B) := by
  induction ps generalizing s t a with
  | nil =>
    simp only [List.foldl_nil, List.map_nil, List.sum_nil, add_zero, List.length_nil, pow_zero, one_mul] at *
    have hB0 : 0 ≤ B := by linarith [abs_nonneg t]
    nlinarith [mul_nonneg h0.le hB0]
  | cons p ps ih =>
    simp only [List.map_cons, List.sum_cons, List.length_cons, List.foldl_cons] at *
    set m := p.1 * p.2
    have hs0 : 0 ≤ (ps.map fun p => |p.1 * p.2|).sum := List.sum_nonneg fun x hx => by
      obtain ⟨q, -, rfl⟩ := List.mem_map.mp hx
      exact abs_nonneg _
    have ht := abs_nonneg t
    have hm := abs_nonneg m
    have hB1 : 1 ≤ B := by linarith
    have hB0 : 0 ≤ B := by linarith
    have hδB : 0 ≤ δ * B := mul_nonneg h0.le hB0
    have hk : (1 : ℝ) ≤ 2 ^ ps.length := one_le_pow₀ (by norm_num)
    have hg2 : (2 * a + 8) * B ≤ 1 / δ := by
      refine le_trans ?_ hg
      rw [pow_succ]
      have : 0 ≤ (2 * a + 8) * B := by positivity
      nlinarith
    have e1 : |fl m - m| ≤ δ * (|m| + 1) := hfl m (le_trans (by nlinarith [mul_nonneg ha hB0]) hg2)
    have e1' : |fl m - m| ≤ δ * B := e1.trans (mul_le_mul_of_nonneg_left (by linarith) h0.le)
    have htm : |t + m| ≤ B := (abs_add_le _ _).trans (by linarith)
    have e2 : |(s + fl m) - (t + m)| ≤ (a + 1) * (δ * B) := by
      rw [show (s + fl m) - (t + m) = (s - t) + (fl m - m) by ring]
      refine (abs_add_le _ _).trans ?_
      linarith
    have e3 : |s + fl m| ≤ (a + 2) * B := by
      have h3 : |s + fl m| ≤ |(s + fl m) - (t + m)| + |t + m| := by
        have := abs_add_le ((s + fl m) - (t + m)) (t + m)
        rwa [sub_add_cancel] at this
      have h4 : (a + 1) * (δ * B) ≤ (a + 1) * B := mul_le_mul_of_nonneg_left (by nlinarith) (by linarith)
      linarith
    have e4 : |fl (s + fl m) - (s + fl m)| ≤ δ * ((a + 3) * B) := by
      refine (hfl _ (e3.trans (le_trans ?_ hg2))).trans (mul_le_mul_of_nonneg_left ?_ h0.le)
      · exact mul_le_mul_of_nonneg_right (by linarith) hB0
      · linarith
    have e5 : |fl (s + fl m) - (t + m)| ≤ (2 * a + 4) * δ * B := by
      rw [show fl (s + fl m) - (t + m) = (fl (s + fl m) - (s + fl m)) + ((s + fl m) - (t + m)) by ring]
      refine (abs_add_le _ _).trans ?_
      linarith
    have := ih (by linarith) e5 (by linarith [abs_add_le t m]) (by
      refine le_trans (le_of_eq ?_) hg
      rw [pow_succ]; ring)
    rw [← add_assoc]
    refine this.trans (le_of_eq ?_)
    rw [pow_succ]; ring

/-- Rounding every operation is accurate. -/
theorem rounded_accurate (h0 : 0 < δ) (h1 : δ ≤ 1) (hfl : ∀ x, Close δ (fl x) x) : Accurate (rounded fl) (fun k => 2 ^ k * 4) δ where
  lit q := hfl q
  ofInt z := hfl z
  add x y := hfl (x + y)
  sub x y := hfl (x - y)
  mul x y := hfl (x * y)
  div x y _ := hfl (x / y)
  neg x := Close.refl h0 _
  le x y := decide_eq_true_iff
  trunc x := rfl
  exp x := hfl _
  pow x y _ := hfl _
  powi x n _ := hfl _
  dot t ps h := by
    have := dot_err (a := 0) (s := 0) (t := 0) (B := 1 + dotSize 0 ps) h0 h1 hfl ps le_rfl (by simp) (by simp [dotSize]; linarith) (by simpa using h)
    simp only [zero_add] at this
    exact this
  dotAcc t z ps h := by
    have := dot_err (a := 0) (s := z) (t := z) (B := 1 + dotSize z ps) h0 h1 hfl ps le_rfl (by simp) (by simp [dotSize]; linarith) (by simpa using h)
    simp only [zero_add] at this
    exact this

theorem Machine.rounded_accurate (h0 : 0 < δ) (h1 : δ ≤ 1) (hfl : ∀ x, Close δ (fl x) x) (η : ℝ) (sph : ℝ → ℝ → ℝ → ℕ → ℝ) (dsph : ℝ → ℝ → ℝ → ℕ → ℕ → ℝ)
    (lmax : ℕ) (calls : List (MACE.Sys × (ℕ → ℕ → ℝ))) : (Machine.rounded fl sph dsph).AccurateFor (fun k => 2 ^ k * 4) δ η sph dsph lmax calls where
  arith := NumSpec.rounded_accurate h0 h1 hfl
  conv := hfl
  nrm := hfl _
  sph := fun _ _ _ _ _ _ _ _ _ _ _ _ => hfl _
  dsph := fun _ _ _ _ _ _ _ _ _ _ _ _ _ _ => hfl _

theorem close_map (hfl : ∀ x, Close δ (fl x) x) (xs : List ℝ) : List.Forall₂ (Close δ) (xs.map fl) xs := by
  induction xs with
  | nil => exact .nil
  | cons x xs ih => exact .cons (hfl x) ih

theorem roundedInput_near (hfl : ∀ x, Close δ (fl x) x) (calls : List (MACE.Sys × (ℕ → ℕ → ℝ))) :
    List.Forall₂ (InputNear δ) (calls.map (roundedInput fl)) calls := by
  induction calls with
  | nil => exact .nil
  | cons q qs ih => exact .cons ⟨rfl, close_map hfl _, close_map hfl _⟩ ih

end Verif.NumSpec
