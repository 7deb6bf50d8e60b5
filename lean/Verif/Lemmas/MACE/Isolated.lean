import Verif.Lemmas.MACE.Eval

/-! # Atoms without neighbours -/

namespace Verif.MACE
open Verif.Spec

theorem polynomial_zero {coeffs : List ℝ} {monos : List (List ℕ)} (h : ∀ m ∈ monos, m ≠ []) {x : ℕ → ℝ} (hx : ∀ v, x v = 0) :
    polynomial coeffs monos x = 0 := by
  unfold polynomial
  apply List.sum_eq_zero
  intro y hy
  obtain ⟨q, hq, rfl⟩ := List.mem_map.mp hy
  obtain ⟨v, l, hl⟩ := List.exists_cons_of_ne_nil (h q.1 (List.of_mem_zip hq).1)
  rw [hl, monomial, List.map_cons, List.prod_cons, hx]
  ring

variable {f : File} {sph : ℝ → ℝ → ℝ → ℕ → ℝ} {T : Sys} {X : ℕ → ℕ → ℝ}

/-- Without neighbours only the reference energy remains. -/
theorem isolated_energy (hf : FileOk f) {i : ℕ} (he : T.edg i = ∅) :
    energy (netOf f) (confOf f sph T X) i = nth f.atomicEnergies (nthN T.types i) := by
  have hedg : (confOf f sph T X).edg i = ∅ := he
  have h1 : ∀ k, h1 (netOf f) (confOf f sph T X) i 0 k = 0 := by
    intro k
    unfold Spec.h1
    apply Finset.sum_eq_zero
    intro k' _
    have : m0 (netOf f) (confOf f sph T X) i 0 k' = 0 :=
      polynomial_zero (fun m hm => ((hf.M0mon 0 (Nat.mul_pos (Nat.succ_pos _) (Nat.succ_pos _))).2 m hm).1)
        (fun v => by simp [a0s, a0, phi0, hedg])
    rw [this, zero_mul]
  have hm1 : ∀ k, m1 (netOf f) (confOf f sph T X) (Spec.h1 (netOf f) (confOf f sph T X)) i k = 0 := fun k =>
    polynomial_zero (fun m hm => (hf.M1mon.2 m hm).1) (fun v => by simp [a1s, a1, phi1, phi1r, hedg])
  have h2 : ∀ k, h2 (netOf f) (confOf f sph T X) (Spec.h1 (netOf f) (confOf f sph T X)) i k = 0 := by
    intro k
    simp [Spec.h2, h1, hm1]
  have hr : (netOf f).read2 (Spec.h2 (netOf f) (confOf f sph T X) (Spec.h1 (netOf f) (confOf f sph T X)) i) = 0 := by
    rw [show Spec.h2 (netOf f) (confOf f sph T X) (Spec.h1 (netOf f) (confOf f sph T X)) i = fun _ => 0 from funext h2]
    simp [netOf, mlpOut, mlpHidden, scaledSilu]
  unfold energy nodeE
  rw [hr]
  have hp : (confOf f sph T X).pairE i = 0 := by
    simp only [confOf]
    cases f.zbl <;> simp [he]
  simp only [hp, h1]
  simp [netOf, confOf]

end Verif.MACE
