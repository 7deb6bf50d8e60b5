import Verif.Lemmas.Kokkos.Layer1

/-!
# Kernels that only add atomically, and every outcome of a kernel

`Ad E p A v δ`: the kernel `p` adds `δ` to the cells `A`, all additions being atomic, and returns `v`.
-/

namespace Verif.Par
open Prog

variable {ι K α : Type} [DecidableEq ι] [AddCommMonoid K] {E : ι → List ℕ} {A : Set (ι × List ℕ)} {δ δ1 δ2 : ι × List ℕ → K} {v w : List K}

/-- See the header. -/
def Ad (E : ι → List ℕ) (p : Prog ι K) (A : Set (ι × List ℕ)) (v : List K) (δ : ι × List ℕ → K) : Prop :=
  Jd E p ∅ ∅ A (fun _ => 0) v (fun _ => 0) δ

theorem Ad.ret : Ad E (.ret v : Prog ι K) A v (fun _ => 0) := Jd.ret (by simp) (fun _ _ => rfl)

theorem Ad.opt {o : Option α} {a : α} {k : α → Prog ι K} (ho : o = some a) (hk : Ad E (k a) A v δ) : Ad E (Prog.opt o k) A v δ :=
  Jd.opt ho hk

theorem Ad.congr {p : Prog ι K} (h : Ad E p A v δ1) (hδ : ∀ c ∈ A, δ c = δ1 c) : Ad E p A v δ :=
  Jd.congr h (by simp) (by simp) (by simp) hδ

theorem Ad.atomic {b : ι} {is : List ℕ} {x : K} (hc : (b, is) ∈ A) :
    Ad E (Prog.atomic E b is x) A [] (fun c => open Classical in if c = (b, is) then x else 0) := by
  classical
  exact Jd.atomic hc (if_pos rfl) (fun c _ hne => if_neg hne) (by simp) (by simp)

theorem Ad.seq {p p' : Prog ι K} (h1 : Ad E p A v δ1) (h2 : Ad E p' A w δ2) : Ad E (p.seq p') A w (fun c => δ1 c + δ2 c) :=
  Jd.seq h1 h2 (by simp) (by simp) (by simp) (fun _ _ => rfl)

theorem Ad.par {n : ℕ} {t : ℕ → Prog ι K} {k : List (List K) → Prog ι K} {V : ℕ → List K} {d : ℕ → ι × List ℕ → K}
    (ht : ∀ i < n, Ad E (t i) A (V i) (d i)) (hkc : ∀ vs, ∃ w δ, Ad E (k vs) A w δ) (hk : Ad E (k (tab n V)) A w δ2) :
    Ad E (.par n t k) A w (fun c => ∑ i ∈ Finset.range n, d i c + δ2 c) := by
  refine Jd.reduce ht (by simp) (by simp) (by simp) (fun vs => ?_) hk (fun c _ => rfl)
  obtain ⟨w, δ, h⟩ := hkc vs
  exact h.1

theorem Ad.parFor {n : ℕ} {t : ℕ → Prog ι K} {d : ℕ → ι × List ℕ → K} (ht : ∀ i < n, ∃ v, Ad E (t i) A v (d i)) :
    Ad E (Prog.parFor n t) A [] (fun c => ∑ i ∈ Finset.range n, d i c) := by
  choose! V hV using ht
  exact (Ad.par hV (fun _ => ⟨_, _, Ad.ret⟩) Ad.ret).congr (fun c _ => by rw [add_zero])

theorem Ad.lc {p : Prog ι K} (h : Ad E p A v δ) : Lc E p A (fun c x => x + δ c) := fun f => by
  have h' : Jd E p ∅ ∅ A f v f δ := Jd.congr h (by simp) (by simp) (by simp) (fun _ _ => rfl)
  refine ⟨v, ?_⟩
  have := h'.ok (h := fun c => f c + δ c) (by simp) (by simp) (by simp) (by simp) (by simp) (fun _ _ => rfl)
  simpa using this

/-- Quantifying over launchers covers every outcome of a launch. -/
theorem Launcher.adequate {p : Prog ι K} {m : Bufs ι K} {o : Option (List K × Bufs ι K)} (h : Outcome p m o) :
    ∃ L : Launcher K, L.go p m = o := by
  classical
  let C : ∀ (κ : Type) [DecidableEq κ], Prog κ K → Bufs κ K → Option (List K × Bufs κ K) → Prop := fun κ _ q n r =>
    Outcome q n r ∧ ∃ e : κ = ι, (e ▸ q : Prog ι K) = p ∧ (e ▸ n : Bufs ι K) = m ∧ (e ▸ r : Option (List K × Bufs ι K)) = o
  let L : Launcher K := {
    go := fun {κ} _ q n => if hc : ∃ r, C κ q n r then hc.choose else run q n
    legal := fun {κ} _ q n => by
      split
      · rename_i hc; exact hc.choose_spec.1
      · exact run_outcome q n }
  have hc : ∃ r, C ι p m r := ⟨o, h, rfl, rfl, rfl, rfl⟩
  refine ⟨L, ?_⟩
  show (if hc : ∃ r, C ι p m r then hc.choose else run p m) = o
  rw [dif_pos hc]
  obtain ⟨-, e, -, -, h3⟩ := hc.choose_spec
  exact h3

end Verif.Par
