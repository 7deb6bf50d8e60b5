import Verif.Spec.Stages
import Verif.Lemmas.MACE.Basic
import Mathlib.Analysis.Calculus.Deriv.Add
import Mathlib.Analysis.Calculus.Deriv.Mul

/-! # Buffers as tables, for the derivative of a single stage -/

namespace Verif.MACE
open Verif.Spec

theorem ex_tab {x : List ℝ} {n : ℕ} (h : x.length = n) : ∃ f : ℕ → ℝ, x = tab n f := by
  subst h; exact ⟨_, eq_tab_getD x⟩

theorem ex_tab2 {x : List ℝ} {n m : ℕ} (h : x.length = n * m) : ∃ f : ℕ → ℕ → ℝ, x = tab2 n m f := by
  refine ⟨fun i j => x[i * m + j]?.getD 0, ?_⟩
  rw [eq_tab2_iff]
  refine ⟨h, fun i hi j hj => ?_⟩
  have := flat_lt hi hj
  simp [h, this]

theorem ex_T3 {x : List ℝ} {n m c : ℕ} (h : x.length = n * m * c) : ∃ f : ℕ → ℕ → ℕ → ℝ, x = T3 n m c f := by
  refine ⟨fun i j k => x[(i * m + j) * c + k]?.getD 0, eq_T3 h ?_⟩
  intro i hi j hj k hk
  have := flat3_lt hi hj hk
  simp [h, this]

theorem zip_tab {A B D : Type} (n : ℕ) (g : A → B → D) (a : ℕ → A) (b : ℕ → B) :
    List.zipWith g (tab n a) (tab n b) = tab n (fun i => g (a i) (b i)) := by
  unfold tab
  rw [List.zipWith_map, List.zipWith_self]

theorem sum_tab' (n : ℕ) (g : ℕ → ℝ) : (tab n g).sum = ∑ i ∈ Finset.range n, g i := by
  induction n with
  | zero => rfl
  | succ n ih =>
    rw [Finset.sum_range_succ, ← ih]
    simp [tab, List.range_succ]

theorem dot_tab (n : ℕ) (a b : ℕ → ℝ) : dot (tab n a) (tab n b) = ∑ i ∈ Finset.range n, a i * b i := by
  unfold dot; rw [zip_tab, sum_tab']

theorem dot_tab2 (n m : ℕ) (a b : ℕ → ℕ → ℝ) :
    dot (tab2 n m a) (tab2 n m b) = ∑ i ∈ Finset.range n, ∑ j ∈ Finset.range m, a i j * b i j := by
  unfold tab2
  rw [dot_tab, sum_flat]
  refine Finset.sum_congr rfl (fun i _ => Finset.sum_congr rfl (fun j hj => ?_))
  rw [flat_div (Finset.mem_range.mp hj), flat_mod (Finset.mem_range.mp hj)]

theorem dot_T3 (n m c : ℕ) (a b : ℕ → ℕ → ℕ → ℝ) :
    dot (T3 n m c a) (T3 n m c b)
      = ∑ i ∈ Finset.range n, ∑ j ∈ Finset.range m, ∑ k ∈ Finset.range c, a i j k * b i j k := by
  unfold T3
  rw [dot_tab, sum_flat, sum_flat]
  refine Finset.sum_congr rfl (fun i _ => Finset.sum_congr rfl (fun j hj => Finset.sum_congr rfl (fun k hk => ?_)))
  rw [dec3_flat a (Finset.mem_range.mp hj) (Finset.mem_range.mp hk), dec3_flat b (Finset.mem_range.mp hj) (Finset.mem_range.mp hk)]

theorem shift_tab2 (n m : ℕ) (a b : ℕ → ℕ → ℝ) (τ : ℝ) :
    shift (tab2 n m a) (tab2 n m b) τ = tab2 n m (fun i j => a i j + τ * b i j) := zip_tab _ _ _ _

theorem shift_T3 (n m c : ℕ) (a b : ℕ → ℕ → ℕ → ℝ) (τ : ℝ) :
    shift (T3 n m c a) (T3 n m c b) τ = T3 n m c (fun i j k => a i j k + τ * b i j k) := zip_tab _ _ _ _

theorem plus_tab2 (n m : ℕ) (a b : ℕ → ℕ → ℝ) : plus (tab2 n m a) (tab2 n m b) = tab2 n m (fun i j => a i j + b i j) :=
  zip_tab _ _ _ _

theorem plus_T3 (n m c : ℕ) (a b : ℕ → ℕ → ℕ → ℝ) :
    plus (T3 n m c a) (T3 n m c b) = T3 n m c (fun i j k => a i j k + b i j k) := zip_tab _ _ _ _

theorem zeros_tab2 (n m : ℕ) : tab2 n m (fun _ _ => (0 : ℝ)) = List.replicate (n * m) 0 := by
  rw [replicate_eq_tab]; rfl

theorem zeros_T3 (n m c : ℕ) : T3 n m c (fun _ _ _ => (0 : ℝ)) = List.replicate (n * m * c) 0 := by
  rw [replicate_eq_tab]; rfl

theorem lin_deriv (a d : ℝ) : HasDerivAt (fun τ : ℝ => a + τ * d) d 0 := by
  simpa using ((hasDerivAt_id (0 : ℝ)).mul_const d).const_add a

/-- To show that a table is a gradient it is enough to compute with tables. -/
theorem isGrad_T3 {F : List ℝ → Option (List ℝ)} {n m c : ℕ} {a g : ℕ → ℕ → ℕ → ℝ} {w : List ℝ}
    (h : ∀ d : ℕ → ℕ → ℕ → ℝ, ∃ y : ℝ → List ℝ,
      (∀ τ, F (T3 n m c (fun i j k => a i j k + τ * d i j k)) = some (y τ) ∧ (y τ).length = w.length) ∧
      HasDerivAt (fun τ => dot w (y τ)) (∑ i ∈ Finset.range n, ∑ j ∈ Finset.range m, ∑ k ∈ Finset.range c, g i j k * d i j k) 0) :
    IsGrad F (T3 n m c a) w (T3 n m c g) := by
  refine ⟨by simp, fun d hd => ?_⟩
  obtain ⟨d, rfl⟩ := ex_T3 (n := n) (m := m) (c := c) (x := d) (by simpa using hd)
  obtain ⟨y, h1, h2⟩ := h d
  refine ⟨y, fun τ => ?_, ?_⟩
  · rw [shift_T3]; exact h1 τ
  · rw [dot_T3]; exact h2

theorem isGrad_tab2 {F : List ℝ → Option (List ℝ)} {n m : ℕ} {a g : ℕ → ℕ → ℝ} {w : List ℝ}
    (h : ∀ d : ℕ → ℕ → ℝ, ∃ y : ℝ → List ℝ,
      (∀ τ, F (tab2 n m (fun i j => a i j + τ * d i j)) = some (y τ) ∧ (y τ).length = w.length) ∧
      HasDerivAt (fun τ => dot w (y τ)) (∑ i ∈ Finset.range n, ∑ j ∈ Finset.range m, g i j * d i j) 0) :
    IsGrad F (tab2 n m a) w (tab2 n m g) := by
  refine ⟨by simp, fun d hd => ?_⟩
  obtain ⟨d, rfl⟩ := ex_tab2 (n := n) (m := m) (x := d) (by simpa using hd)
  obtain ⟨y, h1, h2⟩ := h d
  refine ⟨y, fun τ => ?_, ?_⟩
  · rw [shift_tab2]; exact h1 τ
  · rw [dot_tab2]; exact h2

/-- Derivative of a weighted sum of the entries of a table. -/
theorem dot_T3_deriv {n m c : ℕ} {w y' : ℕ → ℕ → ℕ → ℝ} {y : ℝ → ℕ → ℕ → ℕ → ℝ} {v : ℝ}
    (h : ∀ i < n, ∀ j < m, ∀ k < c, HasDerivAt (fun τ => y τ i j k) (y' i j k) 0)
    (hv : ∑ i ∈ Finset.range n, ∑ j ∈ Finset.range m, ∑ k ∈ Finset.range c, w i j k * y' i j k = v) :
    HasDerivAt (fun τ => dot (T3 n m c w) (T3 n m c (y τ))) v 0 := by
  simp only [dot_T3]
  rw [← hv]
  exact HasDerivAt.fun_sum (fun i hi => HasDerivAt.fun_sum (fun j hj => HasDerivAt.fun_sum (fun k hk =>
    (h i (Finset.mem_range.mp hi) j (Finset.mem_range.mp hj) k (Finset.mem_range.mp hk)).const_mul _)))

theorem dot_tab2_deriv {n m : ℕ} {w y' : ℕ → ℕ → ℝ} {y : ℝ → ℕ → ℕ → ℝ} {v : ℝ}
    (h : ∀ i < n, ∀ j < m, HasDerivAt (fun τ => y τ i j) (y' i j) 0)
    (hv : ∑ i ∈ Finset.range n, ∑ j ∈ Finset.range m, w i j * y' i j = v) :
    HasDerivAt (fun τ => dot (tab2 n m w) (tab2 n m (y τ))) v 0 := by
  simp only [dot_tab2]
  rw [← hv]
  exact HasDerivAt.fun_sum (fun i hi => HasDerivAt.fun_sum (fun j hj =>
    (h i (Finset.mem_range.mp hi) j (Finset.mem_range.mp hj)).const_mul _))

end Verif.MACE
