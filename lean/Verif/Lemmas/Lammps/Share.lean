import Verif.Lemmas.Lammps.Decomp

/-! # From the work along consistent displacements to forces and virial -/

namespace Verif.Lammps
open Verif.MACE Verif.Spec

variable {rc : ℝ} {np : ℕ} {As : ℕ → Atoms} {Ls : ℕ → NList} {κ : ℕ → ℕ → ℕ} {nodes : ℕ → List ℕ} {A0 : Atoms} {L0 : NList}

/-- The forces `F p` on the bonds of all processes do the work of `F0` along all consistent displacements. -/
def SameWork (rc : ℝ) (np : ℕ) (As : ℕ → Atoms) (Ls : ℕ → NList) (κ : ℕ → ℕ → ℕ) (nodes : ℕ → List ℕ) (A0 : Atoms) (L0 : NList)
    (F : ℕ → ℕ → ℕ → ℝ) (F0 : ℕ → ℕ → ℝ) : Prop :=
  ∀ (u : ℕ → ℕ → ℕ → ℝ) (u0 : ℕ → ℕ → ℝ) (ψ : ℕ → (Fin 3 → ℝ) → ℕ → ℕ → ℝ),
    (∀ p < np, ∀ i ∈ nodes p, ∀ j ∈ listed (Ls p) i, ∀ c < 3,
      u p j c - u p i c = ψ (κ p i) (fun c => disp (As p) i j c) (κ p j) c) →
    (∀ b ∈ centres L0, ∀ j ∈ listed L0 b, ∀ c < 3, u0 j c - u0 b c = ψ b (fun c => disp A0 b j c) (original A0 j) c) →
    ∑ p ∈ Finset.range np, ∑ e ∈ Finset.range (bonds (As p) (Ls p) rc (nodes p)).length, ∑ c ∈ Finset.range 3,
        F p e c * edgeDir (As p) (Ls p) rc (nodes p) (u p) e c
      = ∑ e ∈ Finset.range (bonds A0 L0 rc (centres L0)).length, ∑ c ∈ Finset.range 3,
        F0 e c * edgeDir A0 L0 rc (centres L0) u0 e c

variable {F : ℕ → ℕ → ℕ → ℝ} {F0 : ℕ → ℕ → ℝ}

theorem SameWork.forces (h : SameWork rc np As Ls κ nodes A0 L0 F F0) (hI : ImagesOk A0 L0)
    (hE : ∀ p < np, ∀ i ∈ nodes p, EntryOk (As p) (Ls p) i) (b : ℕ) {c : ℕ} (hc : c < 3) :
    ∑ p ∈ Finset.range np, ∑ j ∈ (Finset.range ((As p).nlocal + (As p).nghost)).filter (fun j => κ p j = b),
      ∑ e ∈ Finset.range (bonds (As p) (Ls p) rc (nodes p)).length, F p e c
        * ((if j = endB (As p) (Ls p) rc (nodes p) e then 1 else 0) - if j = endA (As p) (Ls p) rc (nodes p) e then 1 else 0)
      = ∑ e ∈ Finset.range (bonds A0 L0 rc (centres L0)).length, F0 e c
        * ((if b = original A0 (endB A0 L0 rc (centres L0) e) then 1 else 0) - if b = endA A0 L0 rc (centres L0) e then 1 else 0) := by
  have key := h (fun p j c' => if κ p j = b ∧ c' = c then 1 else 0) (fun j c' => if original A0 j = b ∧ c' = c then 1 else 0)
    (fun b1 _ b2 c' => (if b2 = b ∧ c' = c then 1 else 0) - if b1 = b ∧ c' = c then 1 else 0) (fun p _ i _ j _ c' _ => rfl)
    (fun b1 hb1 j _ c' _ => by
      have : original A0 b1 = b1 := by rw [original, hI.self _ hb1]; rfl
      rw [this])
  have one : ∀ (G : ℕ → ℝ) (P Q : Prop) [Decidable P] [Decidable Q],
      ∑ c' ∈ Finset.range 3, G c' * ((if P ∧ c' = c then 1 else 0) - if Q ∧ c' = c then 1 else 0)
        = G c * ((if P then 1 else 0) - if Q then 1 else 0) := by
    intro G P Q _ _
    rw [Finset.sum_eq_single c]
    · simp
    · intro c' _ hne; simp [hne]
    · intro h; exact absurd (Finset.mem_range.mpr hc) h
  simp only [edgeDir, one] at key
  refine Eq.trans (Finset.sum_congr rfl (fun p hp => ?_)) (key.trans (Finset.sum_congr rfl (fun e he => ?_)))
  · rw [Finset.sum_comm]
    refine Finset.sum_congr rfl (fun e he => ?_)
    have hm := ends_mem (Finset.mem_range.mp he)
    have hen := hE p (Finset.mem_range.mp hp) _ hm.1
    have hlA := hen.lt
    have hlB := nbrs_lt hen hm.2
    rw [← Finset.mul_sum, Finset.sum_sub_distrib, Finset.sum_ite_eq', Finset.sum_ite_eq']
    simp only [Finset.mem_filter, Finset.mem_range]
    rw [if_congr (and_iff_right hlB) rfl rfl, if_congr (and_iff_right hlA) rfl rfl]
  · have hm := ends_mem (Finset.mem_range.mp he)
    have : original A0 (endA A0 L0 rc (centres L0) e) = endA A0 L0 rc (centres L0) e := by rw [original, hI.self _ hm.1]; rfl
    rw [this]
    simp only [eq_comm]

theorem SameWork.virial (h : SameWork rc np As Ls κ nodes A0 L0 F F0) {v : ℕ × ℕ} (h1 : v.1 < 3) (h2 : v.2 < 3) :
    ∑ p ∈ Finset.range np, ∑ e ∈ Finset.range (bonds (As p) (Ls p) rc (nodes p)).length,
      1 / 2 * (vecs (As p) (bonds (As p) (Ls p) rc (nodes p)) e v.1 * F p e v.2
        + vecs (As p) (bonds (As p) (Ls p) rc (nodes p)) e v.2 * F p e v.1)
      = ∑ e ∈ Finset.range (bonds A0 L0 rc (centres L0)).length,
        1 / 2 * (bondVecs A0 L0 rc e v.1 * F0 e v.2 + bondVecs A0 L0 rc e v.2 * F0 e v.1) := by
  obtain ⟨a, b⟩ := v
  dsimp only at h1 h2 ⊢
  set ε : ℕ → ℕ → ℝ := fun c d => 1 / 2 * ((if c = b ∧ d = a then 1 else 0) + if c = a ∧ d = b then 1 else 0) with hε
  have key := h (fun p j c => ∑ d ∈ Finset.range 3, ε c d * pos (As p) j d) (fun j c => ∑ d ∈ Finset.range 3, ε c d * pos A0 j d)
    (fun _ x _ c => ∑ d : Fin 3, ε c d * x d)
    (fun p _ i _ j _ c _ => by
      rw [← Finset.sum_sub_distrib, Finset.sum_range]
      exact Finset.sum_congr rfl (fun d _ => by unfold disp; ring))
    (fun i _ j _ c _ => by
      rw [← Finset.sum_sub_distrib, Finset.sum_range]
      exact Finset.sum_congr rfl (fun d _ => by unfold disp; ring))
  have one : ∀ (A : Atoms) (L : NList) (ns : List ℕ) (G : ℕ → ℝ) (e : ℕ),
      ∑ c ∈ Finset.range 3, G c * edgeDir A L rc ns (fun j c => ∑ d ∈ Finset.range 3, ε c d * pos A j d) e c
        = 1 / 2 * (vecs A (bonds A L rc ns) e a * G b + vecs A (bonds A L rc ns) e b * G a) := by
    intro A L ns G e
    simp only [edgeDir, vecs_ends, disp, hε, Finset.sum_range_succ, Finset.sum_range_zero]
    interval_cases a <;> interval_cases b <;> norm_num <;> ring
  simp only [one] at key
  exact key

end Verif.Lammps
