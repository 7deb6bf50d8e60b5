import Verif.Lemmas.Extract.Layers

/-! # One run of the script -/

namespace Verif.Extract
open Verif.MACE Verif.Spec

variable {M : Torch} {n : ℕ} {der : List ℝ → List ℝ} {inv : ℕ → (ℕ → ℕ → ℝ) → Option (ℕ → ℕ → ℝ)} {species : List ℕ} {f : File}

/-- The elements, sorted. -/
def elems (M : Torch) (species : List ℕ) : List ℕ := if species = [] then M.zs.insertionSort (· ≤ ·) else species.insertionSort (· ≤ ·)

theorem mem_elems {a : ℕ} : a ∈ elems M species ↔ a ∈ (if species = [] then M.zs else species) := by
  unfold elems
  split_ifs <;> exact (List.perm_insertionSort _ _).mem_iff

theorem all_contains {an zs : List ℕ} : an.all (fun a => zs.contains a) = true ↔ ∀ a ∈ an, a ∈ zs := by simp

theorem extract_some (h : extract n der inv species M = some f) :
    M.lmax = 3 ∧ (∀ a ∈ elems M species, a ∈ M.zs) ∧ ∃ us u1 inv1, f = fileOf n der M (elems M species) us u1 inv1 ∧ SparseOk M us ∧
      SparseOk1 M u1 ∧ inv M.C (fun k' k => M.up1 (k' * M.C + k) / Real.sqrt M.C) = some inv1 := by
  obtain ⟨us, e1, h1⟩ := sparse_ok M
  obtain ⟨u1, e2, h2⟩ := sparse_ok1 M
  unfold extract at h
  by_cases hl : M.lmax = 3
  · by_cases ha : (elems M species).all (fun a => M.zs.contains a) = true
    · have ha' : (if species = [] then M.zs.insertionSort (· ≤ ·) else species.insertionSort (· ≤ ·)).all (fun a => M.zs.contains a) = true := ha
      simp only [hl, ne_eq, not_true_eq_false, if_false, ha'] at h
      rw [hl] at e1 e2
      simp only [e1, e2, Option.bind_eq_bind, Option.bind_some, pure_bind] at h
      obtain ⟨inv1, e3, e4⟩ := Option.bind_eq_some_iff.mp h
      exact ⟨hl, all_contains.mp ha, us, u1, inv1, (Option.some.inj e4).symm, h1, h2, e3⟩
    · have ha' : ¬ (if species = [] then M.zs.insertionSort (· ≤ ·) else species.insertionSort (· ≤ ·)).all (fun a => M.zs.contains a) = true := ha
      simp [hl] at h
      exact absurd (all_contains.mpr h.1) ha'
  · simp [hl] at h

theorem extract_runs (hl : M.lmax = 3) (ha : ∀ a ∈ elems M species, a ∈ M.zs) {inv1 : ℕ → ℕ → ℝ}
    (hi : inv M.C (fun k' k => M.up1 (k' * M.C + k) / Real.sqrt M.C) = some inv1) : ∃ f, extract n der inv species M = some f := by
  obtain ⟨us, e1, h1⟩ := sparse_ok M
  obtain ⟨u1, e2, h2⟩ := sparse_ok1 M
  have ha' : (if species = [] then M.zs.insertionSort (· ≤ ·) else species.insertionSort (· ≤ ·)).all (fun a => M.zs.contains a) = true :=
    all_contains.mpr ha
  refine ⟨fileOf n der M (elems M species) us u1 inv1, ?_⟩
  unfold extract
  simp only [hl, ne_eq, not_true_eq_false, if_false, ha']
  rw [hl] at e1 e2
  simp only [e1, e2, hi]
  rfl

theorem elems_ok {cg : ℕ → ℕ → ℕ → ℕ → ℝ} (h : TorchOk M cg) (hsp : species.Nodup) (ha : ∀ a ∈ elems M species, a ∈ M.zs) : ElemOk M (elems M species) where
  ne := by
    unfold elems
    split_ifs with hh
    · exact fun e => h.zs.2 (by simpa using congrArg List.length e)
    · exact fun e => hh (by simpa using congrArg List.length e)
  lt := by
    have hle : (elems M species).Pairwise (· ≤ ·) := by
      unfold elems
      split_ifs <;> exact List.pairwise_insertionSort _ _
    have hnd : (elems M species).Nodup := by
      unfold elems
      split_ifs
      · exact (List.perm_insertionSort _ _).nodup_iff.mpr h.zs.1
      · exact (List.perm_insertionSort _ _).nodup_iff.mpr hsp
    exact (hle.and hnd).imp (fun hab => lt_of_le_of_ne hab.1 hab.2)
  mem := ha

end Verif.Extract
