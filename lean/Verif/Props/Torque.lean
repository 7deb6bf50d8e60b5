import Verif.Props.Rotation
import Verif.Props.ASE
import Verif.Props.LammpsForces
import Mathlib.Analysis.SpecialFunctions.Sqrt

/-! # Property C87: no net torque, symmetric virial -/

namespace Verif.Props
open Verif.MACE Verif.Spec

variable (f : File) (sph : ℝ → ℝ → ℝ → ℕ → ℝ) (dsph : ℝ → ℝ → ℝ → ℕ → ℕ → ℝ)

/-- The model file and the harmonics respect all rotations (and reflections), see C56. -/
def Equivariant : Prop :=
  ∀ Q, Orthonormal3 Q → ∃ D, SphRotates sph Q D ((f.lmax + 1) * (f.lmax + 1)) ∧ Intertwines (netOf f) f.nT D

section lemmas
variable {f sph dsph} {T : Sys} {X : ℕ → ℕ → ℝ}

theorem conf_congr {X' : ℕ → ℕ → ℝ} (h : ∀ e, ∀ a < 3, X e a = X' e a) : confOf f sph T X = confOf f sph T X' := by
  have hl : ∀ e, len (X e) = len (X' e) := by
    intro e
    unfold len
    congr 1
    refine Finset.sum_congr rfl (fun a ha => ?_)
    rw [h e a (Finset.mem_range.mp ha)]
  unfold confOf zblEdge
  simp only [hl, h _ 0 (by omega : 0 < 3), h _ 1 (by omega : 1 < 3), h _ 2 (by omega : 2 < 3)]

/-- Rotation in the plane of coordinates `a`, `b` with cosine `u` and sine `v`. -/
def planeTurn (a b : ℕ) (u v : ℝ) (p q : ℕ) : ℝ :=
  if p = a ∧ q = a then u else if p = b ∧ q = b then u else if p = a ∧ q = b then v else if p = b ∧ q = a then -v
  else if p = q then 1 else 0

theorem planeTurn_orthonormal {a b : ℕ} (ha : a < 3) (hb : b < 3) (hab : a ≠ b) {u v : ℝ} (h : u * u + v * v = 1) :
    Orthonormal3 (planeTurn a b u v) := by
  intro p hp q hq
  interval_cases a <;> interval_cases b <;> first | exact absurd rfl hab | skip
  all_goals
    interval_cases p <;> interval_cases q <;> simp [Finset.sum_range_succ, planeTurn] <;> linarith

/-- Direction of the rotation in the plane of `a` and `b`. -/
def spin (a b : ℕ) (X : ℕ → ℕ → ℝ) (e c : ℕ) : ℝ := if c = a then X e b else if c = b then -X e a else 0

def planar (a b : ℕ) (X : ℕ → ℕ → ℝ) (e c : ℕ) : ℝ := if c = a ∨ c = b then X e c else 0

/-- A step along the tangent is a rotation after a stretch of second order. -/
theorem spin_eq {a b : ℕ} (ha : a < 3) (hb : b < 3) (hab : a ≠ b) (τ : ℝ) {s : ℝ} (hs : s ≠ 0) (e c : ℕ) (hc : c < 3) :
    X e c + τ * spin a b X e c = rotate (planeTurn a b (1 / s) (τ / s)) (fun e c => X e c + (s - 1) * planar a b X e c) e c := by
  unfold rotate
  interval_cases a <;> interval_cases b <;> first | exact absurd rfl hab | skip
  all_goals
    interval_cases c <;> simp [Finset.sum_range_succ, planeTurn, spin, planar] <;> field_simp <;> ring

theorem edge_torque (hf : FileOk f) (hsph : IsSphGrad sph dsph ((f.lmax + 1) * (f.lmax + 1))) (hE : Equivariant f sph)
    (hT : SysOk f T) (hX : Inside f T X) (hn : ScalesNonzero f sph T X) {s : State ℝ} (hs : StOk f s) {a b : ℕ} (ha : a < 3) (hb : b < 3) :
    ∑ e ∈ Finset.range T.E, X e a * forceOf f sph dsph T X e b = ∑ e ∈ Finset.range T.E, X e b * forceOf f sph dsph T X e a := by
  by_cases hab : a = b
  · rw [hab]
  have d1 := total_hasDerivAt hf hT hX hsph hs (fun i hi => (hn i hi).1) (fun i hi => (hn i hi).2) (spin a b X)
  have d2 := total_hasDerivAt hf hT hX hsph hs (fun i hi => (hn i hi).1) (fun i hi => (hn i hi).2) (planar a b X)
  have g0 : Real.sqrt (1 + (0 : ℝ) ^ 2) - 1 = 0 := by norm_num
  have dg : HasDerivAt (fun τ : ℝ => Real.sqrt (1 + τ ^ 2) - 1) 0 0 := by
    have h1 : HasDerivAt (fun τ : ℝ => 1 + τ ^ 2) 0 0 := by
      have := ((hasDerivAt_id (0 : ℝ)).pow 2).const_add 1
      simpa using this
    have := (h1.sqrt (by norm_num)).sub_const 1
    simpa using this
  rw [← g0] at d2
  have d3 := d2.comp (0 : ℝ) dg
  rw [mul_zero] at d3
  have d4 := d3.congr_of_eventuallyEq (f₁ := fun τ : ℝ => ∑ i ∈ Finset.range T.N,
      energy (netOf f) (confOf f sph T (fun e c => X e c + τ * spin a b X e c)) i) (by
    have hin := inside_open hX (planar a b X)
    rw [← g0] at hin
    filter_upwards [dg.continuousAt.eventually hin] with τ hτ
    refine Finset.sum_congr rfl (fun i hi => ?_)
    have hs0 : Real.sqrt (1 + τ ^ 2) ≠ 0 := (Real.sqrt_pos.mpr (by positivity)).ne'
    have hss : Real.sqrt (1 + τ ^ 2) * Real.sqrt (1 + τ ^ 2) = 1 + τ ^ 2 := Real.mul_self_sqrt (by positivity)
    have hQ := planeTurn_orthonormal ha hb hab (u := 1 / Real.sqrt (1 + τ ^ 2)) (v := τ / Real.sqrt (1 + τ ^ 2)) (by
      field_simp
      rw [pow_two (Real.sqrt _), hss])
    obtain ⟨D, hY, hD⟩ := hE _ hQ
    rw [conf_congr (fun e c hc => spin_eq ha hb hab τ hs0 e c hc),
      energy_rotate hf hQ hY hD hT hτ (Finset.mem_range.mp hi)])
  have h := d1.unique d4
  rw [neg_eq_zero] at h
  have hsum : ∀ e, ∑ c ∈ Finset.range 3, forceOf f sph dsph T X e c * spin a b X e c
      = X e b * forceOf f sph dsph T X e a - X e a * forceOf f sph dsph T X e b := by
    intro e
    interval_cases a <;> interval_cases b <;> first | exact absurd rfl hab | skip
    all_goals
      simp [Finset.sum_range_succ, spin]
      ring
  simp only [hsum, Finset.sum_sub_distrib] at h
  linarith

theorem tensor_sum (n : ℕ) (F X ε : ℕ → ℕ → ℝ) : ∑ e ∈ Finset.range n, ∑ c ∈ Finset.range 3, F e c * ∑ d ∈ Finset.range 3, ε c d * X e d
    = ε 0 0 * ∑ e ∈ Finset.range n, F e 0 * X e 0 + ε 1 1 * ∑ e ∈ Finset.range n, F e 1 * X e 1 + ε 2 2 * ∑ e ∈ Finset.range n, F e 2 * X e 2
      + (ε 0 1 * ∑ e ∈ Finset.range n, F e 0 * X e 1 + ε 1 0 * ∑ e ∈ Finset.range n, F e 1 * X e 0)
      + (ε 0 2 * ∑ e ∈ Finset.range n, F e 0 * X e 2 + ε 2 0 * ∑ e ∈ Finset.range n, F e 2 * X e 0)
      + (ε 1 2 * ∑ e ∈ Finset.range n, F e 1 * X e 2 + ε 2 1 * ∑ e ∈ Finset.range n, F e 2 * X e 1) := by
  simp only [Finset.mul_sum, ← Finset.sum_add_distrib]
  refine Finset.sum_congr rfl (fun e _ => ?_)
  simp only [Finset.sum_range_succ, Finset.sum_range_zero]
  ring

end lemmas

section props
variable {srt : List (List (List ℕ)) → List (List (List ℕ))}

/-- C87: for a model that respects rotations the tensor `∑ X_e ⊗ F_e` of bond vectors and edge forces is symmetric, on any object
with any history. -/
theorem C87_symmetric_virial (hf : FileOk f) (hsrt : Poly.SortFn srt) (hsph : IsSphGrad sph dsph ((f.lmax + 1) * (f.lmax + 1)))
    (hE : Equivariant f sph) : ∃ P s0, load srt sph dsph f = some (P, s0) ∧ ∀ s, Hist f P s0 s → ∀ T X, SysOk f T → Inside f T X →
      ScalesNonzero f sph T X → ∃ s', ∃ F : ℕ → ℕ → ℝ, computeNodeEnergiesForces f.zbl P (T.graph X) s = some s' ∧
        (∀ e < T.E, ∀ a < 3, s'.nodeForces[3 * e + a]? = some (F e a)) ∧
        ∀ a < 3, ∀ b < 3, ∑ e ∈ Finset.range T.E, X e a * F e b = ∑ e ∈ Finset.range T.E, X e b * F e a := by
  obtain ⟨P, s0, h1, h2, h3⟩ := load_spec hf hsrt sph dsph
  refine ⟨P, s0, h1, fun s hs T X hT hX hn => ?_⟩
  obtain ⟨s', e1, e2, e3, e4⟩ := compute_spec hf hT h2 hX (hs.ok hf h2 h3)
  exact ⟨s', forceOf f sph dsph T X, e1, fun e he a ha => by rw [e3, mul_comm 3, getElem?_tab2 he ha],
    fun a ha b hb => edge_torque hf hsph hE hT hX hn e4 ha hb⟩

/-- C87 for the Kokkos evaluator, in any environment. -/
theorem C87_symmetric_virial_kokkos {junk : ℕ → ℕ → ℝ} {ne : ℕ} (hf : FileOk f) (hk : FileOkK f ne) (hsrt : Poly.SortFn srt)
    (hsph : IsSphGrad sph dsph ((f.lmax + 1) * (f.lmax + 1))) (hE : Equivariant f sph) :
    ∃ P, Kokkos.load srt sph dsph junk ne f = some (P, Kokkos.State.init ℝ) ∧ ∀ s, HistK f P s → ∀ (V : Kokkos.Env ℝ) (T : Sys) X,
      SysOk f T → Inside f T X → ScalesNonzero f sph T X →
      ∃ t, ∃ F : ℕ → ℕ → ℝ, Kokkos.compute V P f.zbl (T.graph X) s = some t ∧
        (∀ e < T.E, ∀ a < 3, t.forces.data[3 * e + a]? = some (F e a)) ∧
        ∀ a < 3, ∀ b < 3, ∑ e ∈ Finset.range T.E, X e a * F e b = ∑ e ∈ Finset.range T.E, X e b * F e a := by
  obtain ⟨P, s0, P', h1, h2, h⟩ := C62_kokkos_equals_cpu (f := f) (sph := sph) (dsph := dsph) (junk := junk) hf hk hsrt
  obtain ⟨P'', s0', h1', hr⟩ := C87_symmetric_virial f sph dsph hf hsrt hsph hE
  rw [h1] at h1'
  cases h1'
  refine ⟨P', h2, fun s hs V T X hT hX hn => ?_⟩
  obtain ⟨c, F, a1, a2, a3⟩ := hr s0 Hist.init T X hT hX hn
  obtain ⟨c', t, b1, b2, b3, b4, b5, b6⟩ := h T X hT hX s0 Hist.init s hs V
  rw [a1] at b1
  cases b1
  refine ⟨t, F, b2, fun e he a ha => ?_, a3⟩
  rw [b6.2.2 _ (by have := b6.2.1; omega), if_pos (by omega)]
  exact a2 e he a ha

section ase
open Verif.ASE

theorem _root_.Verif.ASE.PairsOk.ends {nA : ℕ} {i j : List ℕ} (h : PairsOk nA i j) {e : ℕ} (he : e < i.length) :
    nthN i e < nA ∧ nthN j e < nA := by
  have hj : e < j.length := by rw [← h.len]; exact he
  constructor
  · have := h.lt _ (List.getElem_mem he)
    simpa [nthN, he] using this
  · have := h.lt _ (h.perm.mem_iff.mpr (List.getElem_mem hj))
    simpa [nthN, hj] using this

/-- C87 for the ASE calculator: the forces on the atoms of a cluster (no pair across the cell boundary) have no net torque. -/
theorem C87_torque_ase (hf : FileOk f) (hsrt : Poly.SortFn srt) (hsph : IsSphGrad sph dsph ((f.lmax + 1) * (f.lmax + 1)))
    (hE : Equivariant f sph) : ∃ P s0, load srt sph dsph f = some (P, s0) ∧ ∀ Z i j V, i ≠ [] → ∀ x,
      CalcOk f Z i j (vecs i j (fun _ _ => 0) x) →
      ScalesNonzero f sph (sysOf f.atomicNumbers Z i j (covered i)) (vecs i j (fun _ _ => 0) x) → ∀ s, Hist f P s0 s →
      ∃ r, calculate f.zbl P Z V (pairsOf i j (vecs i j (fun _ _ => 0) x)) s = some r ∧ ∀ c < 3, ∀ d < 3,
        ∑ b ∈ Finset.range Z.length, x b c * nth (row r.2.forces d) b = ∑ b ∈ Finset.range Z.length, x b d * nth (row r.2.forces c) b := by
  obtain ⟨P, s0, h1, h2, h3⟩ := load_spec hf hsrt sph dsph
  refine ⟨P, s0, h1, fun Z i j V hne x hc hsc s hs => ?_⟩
  obtain ⟨m, hm, hcov⟩ := covered_eq hne
  have hi := max?_le hm
  have hlt : ∀ a ∈ i, a < m + 1 := fun a ha => Nat.lt_succ_of_le (hi.2 a ha)
  rw [hcov] at hsc
  have hX := inside_calc hc hlt
  obtain ⟨s', e1, _⟩ := calculate_spec hf h2 hc.pairs hc.known hm hX (hs.ok hf h2 h3) V
  refine ⟨_, e1, fun c hc3 d hd3 => ?_⟩
  have hT := sysOf_ok hc.pairs hc.known hlt (hc.pairs.lt m hi.1)
  have key := edge_torque hf hsph hE hT hX hsc (hs.ok hf h2 h3) hc3 hd3
  rw [sysOf_E hlt] at key
  generalize forceOf f sph dsph (sysOf f.atomicNumbers Z i j (m + 1)) (vecs i j (fun _ _ => 0) x) = F at key ⊢
  have hrow : ∀ d < 3, ∀ b < Z.length, nth (row [tab Z.length (fun a => atomForce i j F a 0),
      tab Z.length (fun a => atomForce i j F a 1), tab Z.length (fun a => atomForce i j F a 2)] d) b = atomForce i j F b d := by
    intro d hd b hb
    interval_cases d <;> simp [row, Verif.Lammps.nth_tab hb]
  have hsum : ∀ c < 3, ∀ d < 3, ∑ b ∈ Finset.range Z.length, x b c * nth (row [tab Z.length (fun a => atomForce i j F a 0),
      tab Z.length (fun a => atomForce i j F a 1), tab Z.length (fun a => atomForce i j F a 2)] d) b
      = ∑ e ∈ Finset.range i.length, vecs i j (fun _ _ => 0) x e c * F e d := by
    intro c hc' d hd'
    rw [Finset.sum_congr rfl (fun b hb => by rw [hrow d hd' b (Finset.mem_range.mp hb)])]
    unfold atomForce
    simp only [Finset.mul_sum]
    rw [Finset.sum_comm]
    refine Finset.sum_congr rfl (fun e he => ?_)
    have hj := (hc.pairs.ends (Finset.mem_range.mp he)).2
    have hi' := (hc.pairs.ends (Finset.mem_range.mp he)).1
    have e1 : ∀ b, x b c * (F e d * ((if nthN j e = b then 1 else 0) - if nthN i e = b then 1 else 0))
        = (if nthN j e = b then x b c * F e d else 0) - if nthN i e = b then x b c * F e d else 0 := by
      intro b
      split_ifs <;> ring
    simp only [e1, Finset.sum_sub_distrib, Finset.sum_ite_eq, Finset.mem_range, hj, hi', if_true]
    unfold vecs
    ring
  rw [hsum c hc3 d hd3, hsum d hd3 c hc3]
  exact key

/-- C87, C40: the six stress components give the derivative of the energy under every deformation `ε`, symmetric or not. -/
theorem C87_stress_ase (hf : FileOk f) (hsrt : Poly.SortFn srt) (hsph : IsSphGrad sph dsph ((f.lmax + 1) * (f.lmax + 1)))
    (hE : Equivariant f sph) : ∃ P s0, load srt sph dsph f = some (P, s0) ∧ ∀ Z i j, i ≠ [] → ∃ E : (ℕ → ℕ → ℝ) → (ℕ → ℕ → ℝ) → ℝ,
      (∀ V S x, CalcOk f Z i j (vecs i j S x) → ∀ s, Hist f P s0 s →
        ∃ r, calculate f.zbl P Z V (pairsOf i j (vecs i j S x)) s = some r ∧ r.2.energy = E S x) ∧
      ∀ V, V ≠ 0 → ∀ S x, CalcOk f Z i j (vecs i j S x) →
        ScalesNonzero f sph (sysOf f.atomicNumbers Z i j (covered i)) (vecs i j S x) → ∀ s, Hist f P s0 s →
        ∃ r, ∃ xx yy zz yz xz xy : ℝ, calculate f.zbl P Z V (pairsOf i j (vecs i j S x)) s = some r ∧
          r.2.stress = [xx, yy, zz, yz, xz, xy] ∧ ∀ ε : ℕ → ℕ → ℝ,
          (∀ᶠ τ in nhds 0, CalcOk f Z i j (vecs i j (strained ε S τ) (strained ε x τ))) ∧
          HasDerivAt (fun τ => E (strained ε S τ) (strained ε x τ))
            (V * (ε 0 0 * xx + ε 1 1 * yy + ε 2 2 * zz + (ε 1 2 + ε 2 1) * yz + (ε 0 2 + ε 2 0) * xz + (ε 0 1 + ε 1 0) * xy)) 0 := by
  obtain ⟨P, s0, h1, h2, h3⟩ := load_spec hf hsrt sph dsph
  refine ⟨P, s0, h1, fun Z i j hne => ?_⟩
  obtain ⟨m, hm, hcov⟩ := covered_eq hne
  have hi := max?_le hm
  have hlt : ∀ a ∈ i, a < m + 1 := fun a ha => Nat.lt_succ_of_le (hi.2 a ha)
  refine ⟨fun S x => ∑ a ∈ Finset.range (m + 1),
    energy (netOf f) (confOf f sph (sysOf f.atomicNumbers Z i j (m + 1)) (vecs i j S x)) a, ?_, ?_⟩
  · intro V S x hc s hs
    obtain ⟨s', e1, _⟩ := calculate_spec hf h2 hc.pairs hc.known hm (inside_calc hc hlt) (hs.ok hf h2 h3) V
    exact ⟨_, e1, rfl⟩
  · intro V hV S x hc hsc s hs
    rw [hcov] at hsc
    have hX := inside_calc hc hlt
    have hT := sysOf_ok hc.pairs hc.known hlt (hc.pairs.lt m hi.1)
    obtain ⟨s', e1, _⟩ := calculate_spec hf h2 hc.pairs hc.known hm hX (hs.ok hf h2 h3) V
    refine ⟨_, _, _, _, _, _, _, e1, rfl, fun ε => ?_⟩
    have hvec : ∀ τ, vecs i j (strained ε S τ) (strained ε x τ) = fun e c => vecs i j S x e c
        + τ * ∑ d ∈ Finset.range 3, ε c d * vecs i j S x e d := by
      intro τ
      funext e c
      unfold vecs strained
      simp only [Finset.sum_range_succ, Finset.sum_range_zero]
      ring
    refine ⟨?_, ?_⟩
    · have := inside_open hX (fun e c => ∑ d ∈ Finset.range 3, ε c d * vecs i j S x e d)
      filter_upwards [this] with τ hτ
      refine ⟨hc.pairs, hc.known, fun e he => ?_⟩
      rw [hvec]
      exact hτ e (by rw [sysOf_E hlt]; exact he)
    · simp only [hvec]
      have := total_hasDerivAt hf hT hX hsph (hs.ok hf h2 h3)
        (fun a ha => (hsc a ha).1) (fun a ha => (hsc a ha).2) (fun e c => ∑ d ∈ Finset.range 3, ε c d * vecs i j S x e d)
      refine this.congr_deriv ?_
      have l0 : (0 : ℕ) < 3 := by norm_num
      have l1 : (1 : ℕ) < 3 := by norm_num
      have l2 : (2 : ℕ) < 3 := by norm_num
      have k01 := edge_torque hf hsph hE hT hX hsc (hs.ok hf h2 h3) l0 l1
      have k02 := edge_torque hf hsph hE hT hX hsc (hs.ok hf h2 h3) l0 l2
      have k12 := edge_torque hf hsph hE hT hX hsc (hs.ok hf h2 h3) l1 l2
      rw [sysOf_E hlt] at k01 k02 k12 ⊢
      simp only [l0, l1, l2, and_self, if_true]
      generalize forceOf f sph dsph (sysOf f.atomicNumbers Z i j (m + 1)) (vecs i j S x) = F at *
      generalize vecs i j S x = X at *
      rw [tensor_sum]
      simp only [mul_comm (F _ _)]
      rw [k01, k02, k12]
      field_simp
      ring

end ase

section lammps
open Verif.Lammps

/-- C87, C40: the six numbers `v` the pair style adds to `virial` give minus the derivative of its energy under every deformation `ε` of
atoms, images and box, symmetric or not. -/
theorem C87_virial_lammps (hf : FileOk f) (hsrt : Poly.SortFn srt) (hsph : IsSphGrad sph dsph ((f.lmax + 1) * (f.lmax + 1)))
    (hE : Equivariant f sph) : ∃ P s0, load srt sph dsph f = some (P, s0) ∧ ∀ rc mt L, ∃ E : Atoms → ℝ,
      (∀ A, RunOk f rc mt L A → ∀ s, Hist f P s0 s → ∀ w fl t, fl.vAtom = false → fl.eGlobal → TallyOk A L t →
        ∃ r, computeSingle f.zbl P rc mt fl A L w s t = some r ∧ r.2.2.eng = t.eng + E A) ∧
      ∀ A, RunOk f rc mt L A → OffCutoff A L rc → ScalesNonzero f sph (periodic A L rc mt) (bondVecs A L rc) →
        ∀ s, Hist f P s0 s → ∀ w fl t, fl.vAtom = false → fl.vGlobal → TallyOk A L t →
        ∃ r, ∃ v : ℕ → ℝ, computeSingle f.zbl P rc mt fl A L w s t = some r ∧
          (∀ k < 6, nth r.2.2.virial k = nth t.virial k + v k) ∧
          ∀ ε : ℕ → ℕ → ℝ, (∀ᶠ τ in nhds 0, RunOk f rc mt L (strain A ε τ)) ∧
            HasDerivAt (fun τ => E (strain A ε τ))
              (-(ε 0 0 * v 0 + ε 1 1 * v 1 + ε 2 2 * v 2 + (ε 0 1 + ε 1 0) * v 3 + (ε 0 2 + ε 2 0) * v 4 + (ε 1 2 + ε 2 1) * v 5)) 0 := by
  obtain ⟨P, s0, h1, h2, h3⟩ := load_spec hf hsrt sph dsph
  refine ⟨P, s0, h1, fun rc mt L => ⟨Etot f sph L rc mt, fun A hA s hs w fl t hv hg ht => ?_,
    fun A hA hO hsc s hs w fl t hv hg ht => ?_⟩⟩
  · obtain ⟨r, r1, r2, _⟩ := single_result hf h2 hA (hs.ok hf h2 h3) w hv ht
    exact ⟨r, r1, by rw [r2, if_pos hg]⟩
  · obtain ⟨r, r1, _, _, _, r5⟩ := single_result hf h2 hA (hs.ok hf h2 h3) w hv ht
    refine ⟨r, _, r1, fun k hk => r5 hg k hk, fun ε => ?_⟩
    obtain ⟨d1, d2⟩ := Etot_hasDerivAt hf hA.atoms hA.list hA.images hO hA.inside hsph (hs.ok hf h2 h3) hsc
      (fun j c => ∑ d ∈ Finset.range 3, ε c d * pos A j d)
    refine ⟨?_, ?_⟩
    · filter_upwards [d2] with τ hτ
      exact ⟨displaced_ok hA.atoms, list_displaced hA.list, images_displaced hA.images, hτ.1⟩
    · refine d1.congr_deriv ?_
      have hT := periodic_ok (rc := rc) hA.atoms hA.list hA.images
      have hEE : (periodic A L rc mt).E = (bonds A L rc (centres L)).length := sysOf_E _ _
      have k01 := edge_torque hf hsph hE hT hA.inside hsc (hs.ok hf h2 h3) (show 0 < 3 by omega) (show 1 < 3 by omega)
      have k02 := edge_torque hf hsph hE hT hA.inside hsc (hs.ok hf h2 h3) (show 0 < 3 by omega) (show 2 < 3 by omega)
      have k12 := edge_torque hf hsph hE hT hA.inside hsc (hs.ok hf h2 h3) (show 1 < 3 by omega) (show 2 < 3 by omega)
      rw [hEE] at k01 k02 k12
      have hdir : ∀ e c, edgeDir A L rc (centres L) (fun j c => ∑ d ∈ Finset.range 3, ε c d * pos A j d) e c
          = ∑ d ∈ Finset.range 3, ε c d * bondVecs A L rc e d := by
        intro e c
        have hX : ∀ c, bondVecs A L rc e c = pos A (endB A L rc (centres L) e) c - pos A (endA A L rc (centres L) e) c := fun _ => rfl
        simp only [Finset.sum_range_succ, Finset.sum_range_zero, edgeDir, hX]
        ring
      simp only [hdir]
      generalize forceOf f sph dsph (periodic A L rc mt) (bondVecs A L rc) = F at *
      generalize bondVecs A L rc = X at *
      rw [tensor_sum]
      have v0 : (voigt 0) = (0, 0) := rfl
      have v1 : (voigt 1) = (1, 1) := rfl
      have v2 : (voigt 2) = (2, 2) := rfl
      have v3 : (voigt 3) = (0, 1) := rfl
      have v4 : (voigt 4) = (0, 2) := rfl
      have v5 : (voigt 5) = (1, 2) := rfl
      simp only [v0, v1, v2, v3, v4, v5, ← Finset.mul_sum, Finset.sum_add_distrib]
      simp only [mul_comm (F _ _)]
      rw [k01, k02, k12]
      ring

end lammps

end props

/-- The hypotheses are met by the file of C56. -/
example : FileOk rotFile ∧ FileOkK rotFile 2 ∧ Equivariant rotFile exSph ∧ Inside rotFile exSys exX ∧ ScalesNonzero rotFile exSph exSys exX :=
  ⟨rotFile_ok, rotFile_okK, fun Q hQ => ⟨rotD Q, rotD_sph Q, rot_intertwines hQ⟩, rotInside, rotScales⟩

end Verif.Props
