import Verif.Lemmas.ZBLLoop
import Mathlib.Tactic.IntervalCases

/-! # Property theorems: ZBL repulsion (C14 - C18) -/

namespace Verif.Props
open Verif.ZBLModel Verif.Spec

/-- The object computes the documented formula (used by C14 - C18 to tie the code to the mathematics). -/
theorem C14_formula (z : ZBL) (c : Fin 4 → ℝ) (p : ℕ) (hc : ∀ k : Fin 4, z.c[k.val]? = some (c k)) (hp : z.p = p)
    (hp1 : 1 ≤ p) (Zu Zv : ℕ) (ru rv : ℝ) (hu : z.rad[Zu]? = some ru) (hv : z.rad[Zv]? = some rv) (r : ℝ) :
    z.compute Zu Zv r = some (zblEnergy z.aExp z.aPre c (ru + rv) p Zu Zv r) :=
  compute_eq ⟨hc, hp, hp1⟩ hu hv r

/-- C14: `compute_gradient` is the derivative of `compute` at every `r > 0`, the cutoff included. -/
theorem C14_gradient (z : ZBL) (hc : 4 ≤ z.c.length) (hp : 1 ≤ z.p) (_ha : z.aPre ≠ 0) (Zu Zv : ℕ)
    (_hZu : 0 < Zu) (_hZv : 0 < Zv) (hu : Zu < z.rad.length) (hv : Zv < z.rad.length) :
    ∃ E G : ℝ → ℝ, (∀ r, z.compute Zu Zv r = some (E r)) ∧ (∀ r, z.computeGradient Zu Zv r = some (G r)) ∧
      ∀ r, 0 < r → HasDerivAt E (G r) r := by
  obtain ⟨p, hp'⟩ := Int.eq_ofNat_of_zero_le (by omega : 0 ≤ z.p)
  have hz : z.WF (fun k => z.c[k.val]'(by omega)) p :=
    ⟨fun k => List.getElem?_eq_getElem _, hp', by omega⟩
  refine ⟨_, _, fun r => compute_eq hz (List.getElem?_eq_getElem hu) (List.getElem?_eq_getElem hv) r,
    fun r => computeGradient_eq hz (List.getElem?_eq_getElem hu) (List.getElem?_eq_getElem hv) r, ?_⟩
  intro r hr
  exact zblEnergy_hasDerivAt _ hz.hp1 _ _ hr

/-- C15: swapping the species changes nothing. -/
theorem C15_symmetric (z : ZBL) (hc : 4 ≤ z.c.length) (hp : 1 ≤ z.p) (Zu Zv : ℕ) (hu : Zu < z.rad.length)
    (hv : Zv < z.rad.length) (r : ℝ) :
    z.compute Zu Zv r = z.compute Zv Zu r ∧ z.computeGradient Zu Zv r = z.computeGradient Zv Zu r := by
  obtain ⟨p, hp'⟩ := Int.eq_ofNat_of_zero_le (by omega : 0 ≤ z.p)
  have hz : z.WF (fun k => z.c[k.val]'(by omega)) p :=
    ⟨fun k => List.getElem?_eq_getElem _, hp', by omega⟩
  have eu := List.getElem?_eq_getElem hu
  have ev := List.getElem?_eq_getElem hv
  rw [compute_eq hz eu ev, compute_eq hz ev eu, computeGradient_eq hz eu ev, computeGradient_eq hz ev eu]
  refine ⟨?_, ?_⟩
  · simp only [zblEnergy, zblA_comm _ _ Zu Zv, add_comm z.rad[Zu]]
    congr 1; ring
  · simp only [zblGrad, zblA_comm _ _ Zu Zv, add_comm z.rad[Zu]]
    congr 1; ring

/-- C15: at or beyond the sum of the covalent radii energy and gradient vanish. -/
theorem C15_compact_support (z : ZBL) (hc : 4 ≤ z.c.length) (hp : 1 ≤ z.p) (Zu Zv : ℕ) (ru rv : ℝ)
    (hu : z.rad[Zu]? = some ru) (hv : z.rad[Zv]? = some rv) (r : ℝ) (hr : ru + rv ≤ r) :
    z.compute Zu Zv r = some 0 ∧ z.computeGradient Zu Zv r = some 0 := by
  obtain ⟨p, hp'⟩ := Int.eq_ofNat_of_zero_le (by omega : 0 ≤ z.p)
  have hz : z.WF (fun k => z.c[k.val]'(by omega)) p :=
    ⟨fun k => List.getElem?_eq_getElem _, hp', by omega⟩
  rw [compute_eq hz hu hv, computeGradient_eq hz hu hv]
  simp [zblEnergy, zblGrad, envelope_of_nonpos hr, envD, not_lt.mpr hr]

/-- C16: the envelope starts at 1, stays in [0,1], never increases, and has the coded gradient everywhere on
`r ≥ 0`. -/
theorem C16_envelope (rMax : ℝ) (hR : 0 < rMax) (p : ℤ) (hp : 1 ≤ p) :
    computeEnvelope 0 rMax p = 1 ∧
    (∀ r, rMax ≤ r → computeEnvelope r rMax p = 0) ∧
    (∀ r, 0 ≤ r → 0 ≤ computeEnvelope r rMax p ∧ computeEnvelope r rMax p ≤ 1) ∧
    AntitoneOn (fun r => computeEnvelope r rMax p) (Set.Ici 0) ∧
    (∀ r, HasDerivAt (fun r => computeEnvelope r rMax p) (computeEnvelopeGradient r rMax p) r) ∧
    Continuous (fun r => computeEnvelopeGradient r rMax p) := by
  obtain ⟨q, rfl⟩ := Int.eq_ofNat_of_zero_le (by omega : 0 ≤ p)
  have hq : 1 ≤ q := by omega
  simp only [computeEnvelope_eq, computeEnvelopeGradient_eq _ _ hq]
  refine ⟨envelope_zero hR hq, fun r hr => envelope_of_nonpos hr, fun r hr => ⟨envelope_nonneg hq hr, ?_⟩,
    envelope_antitone hR hq, fun r => envelope_hasDerivAt hR hq r, ?_⟩
  · rw [← envelope_zero hR hq]
    exact envelope_antitone hR hq (Set.mem_Ici.mpr le_rfl) (Set.mem_Ici.mpr hr) hr
  · unfold envD
    apply Continuous.if
    · intro a ha
      have : a = rMax := by
        have h1 := frontier_lt_subset_eq (f := fun x : ℝ => x) (g := fun _ => rMax) continuous_id continuous_const ha
        exact h1
      rw [this, div_self hR.ne']
      ring
    · fun_prop
    · fun_prop

/-- C17: with non-negative coefficients and positive screening length the pair energy is non-negative and its
derivative is non-positive. -/
theorem C17_repulsive (z : ZBL) (hc : 4 ≤ z.c.length) (hpos : ∀ x ∈ z.c, 0 ≤ x) (hp : 1 ≤ z.p) (ha : 0 < z.aPre)
    (Zu Zv : ℕ) (hZu : 0 < Zu) (hZv : 0 < Zv) (hu : Zu < z.rad.length) (hv : Zv < z.rad.length) (r : ℝ)
    (hr : 0 < r) :
    ∃ E G, z.compute Zu Zv r = some E ∧ z.computeGradient Zu Zv r = some G ∧ 0 ≤ E ∧ G ≤ 0 := by
  obtain ⟨p, hp'⟩ := Int.eq_ofNat_of_zero_le (by omega : 0 ≤ z.p)
  have hz : z.WF (fun k => z.c[k.val]'(by omega)) p :=
    ⟨fun k => List.getElem?_eq_getElem _, hp', by omega⟩
  have hc' : ∀ k : Fin 4, 0 ≤ z.c[k.val]'(by omega) := fun k => hpos _ (List.getElem_mem _)
  refine ⟨_, _, compute_eq hz (List.getElem?_eq_getElem hu) (List.getElem?_eq_getElem hv) r,
    computeGradient_eq hz (List.getElem?_eq_getElem hu) (List.getElem?_eq_getElem hv) r, ?_, ?_⟩
  · have h1 := phi_nonneg hc' (r / zblA z.aExp z.aPre Zu Zv)
    have h2 := envelope_nonneg (R := z.rad[Zu] + z.rad[Zv]) hz.hp1 hr.le
    unfold zblEnergy
    positivity
  · exact zblGrad_nonpos hc' _ hz.hp1 ha hZu hZv hr

/-- A concrete object meeting the hypotheses of C14 - C17 (hydrogen and carbon radii). -/
example : ∃ z : ZBL, 4 ≤ z.c.length ∧ (∀ x ∈ z.c, 0 ≤ x) ∧ 1 ≤ z.p ∧ 0 < z.aPre ∧ z.aPre ≠ 0 ∧ 6 < z.rad.length :=
  ⟨⟨0.3, 0.4543, [0.1818, 0.5099, 0.2802, 0.02817], [0.2, 0.31, 0.28, 1.28, 0.96, 0.84, 0.76], 6⟩, by simp,
    by intro x hx; simp at hx; rcases hx with rfl | rfl | rfl | rfl <;> norm_num, by norm_num, by norm_num, by norm_num,
    by simp⟩

/-- C18: `compute_ZBL` adds to entry `i < num_nodes` of the energies the sum of `compute` over the neighbours of
`i`, subtracts gradient times unit vector from the three force components of each edge, touches nothing else, keeps
the buffer lengths, and never leaves its buffers (`= some`). -/
theorem C18_accumulates (z : ZBL) (hc : 4 ≤ z.c.length) (hp : 1 ≤ z.p) (N : ℕ)
    (nodeTypes numNeigh neighTypes atomicNumbers : List ℕ) (r xyz : List ℝ)
    (t n u Z : ℕ → ℕ) (R : ℕ → ℝ) (X : ℕ → ℕ → ℝ) (E G : ℕ → ℕ → ℝ)
    (ht : ∀ i < N, nodeTypes[i]? = some (t i)) (hn : ∀ i < N, numNeigh[i]? = some (n i))
    (hu : ∀ e < off numNeigh N, neighTypes[e]? = some (u e))
    (hZt : ∀ i < N, atomicNumbers[t i]? = some (Z (t i)))
    (hZu : ∀ e < off numNeigh N, atomicNumbers[u e]? = some (Z (u e)))
    (hR : ∀ e < off numNeigh N, r[e]? = some (R e))
    (hX : ∀ e < off numNeigh N, ∀ a < 3, xyz[3 * e + a]? = some (X e a))
    (hrt : ∀ i < N, Z (t i) < z.rad.length) (hru : ∀ e < off numNeigh N, Z (u e) < z.rad.length)
    (hE : ∀ i < N, ∀ j < n i, z.compute (Z (t i)) (Z (u (off numNeigh i + j))) (R (off numNeigh i + j)) = some (E i j))
    (hG : ∀ i < N, ∀ j < n i, z.computeGradient (Z (t i)) (Z (u (off numNeigh i + j))) (R (off numNeigh i + j))
      = some (G i j))
    (st : Bufs Bool ℝ) (hlE : N ≤ (st false).length) (hlF : 3 * off numNeigh N ≤ (st true).length) :
    ∃ st', z.computeZBL N nodeTypes numNeigh neighTypes atomicNumbers r xyz st = some st' ∧
      (∀ b, (st' b).length = (st b).length) ∧
      (∀ i < N, (st' false)[i]? = (st false)[i]?.map (· + ∑ j ∈ Finset.range (n i), E i j)) ∧
      (∀ i ≥ N, (st' false)[i]? = (st false)[i]?) ∧
      (∀ i < N, ∀ j < n i, ∀ a < 3, (st' true)[3 * (off numNeigh i + j) + a]? =
        (st true)[3 * (off numNeigh i + j) + a]?.map
          (fun w => w - X (off numNeigh i + j) a / R (off numNeigh i + j) * G i j)) ∧
      (∀ q ≥ 3 * off numNeigh N, (st' true)[q]? = (st true)[q]?) := by
  obtain ⟨p, hp'⟩ := Int.eq_ofNat_of_zero_le (by omega : 0 ≤ z.p)
  have hz : z.WF (fun k => z.c[k.val]'(by omega)) p :=
    ⟨fun k => List.getElem?_eq_getElem _, hp', by omega⟩
  have hrho : ∀ q, q < z.rad.length → z.rad[q]? = some (z.rad[q]?.getD 0) := by
    intro q hq; simp [hq]
  have H : Reads z N nodeTypes numNeigh neighTypes atomicNumbers r xyz t n u Z R X (fun q => z.rad[q]?.getD 0) :=
    ⟨ht, hn, hu, hZt, hZu, hR, hX, fun i hi => hrho _ (hrt i hi), fun e he => hrho _ (hru e he)⟩
  obtain ⟨st', h1, h2, h3, h4, h5, h6⟩ := computeZBL_run hz H st hlE hlF
  have hEe : ∀ i < N, ∀ j < n i,
      pairE z (fun k => z.c[k.val]'(by omega)) p t u Z R (fun q => z.rad[q]?.getD 0) i (off numNeigh i + j) = E i j := by
    intro i hi j hj
    have he := off_add_lt hi (hn i hi) hj
    have := compute_eq hz (H.hrt i hi) (H.hru _ he) (R (off numNeigh i + j))
    rw [hE i hi j hj] at this
    exact (Option.some.inj this).symm
  have hGe : ∀ i < N, ∀ j < n i,
      pairG z (fun k => z.c[k.val]'(by omega)) p t u Z R (fun q => z.rad[q]?.getD 0) i (off numNeigh i + j) = G i j := by
    intro i hi j hj
    have he := off_add_lt hi (hn i hi) hj
    have := computeGradient_eq hz (H.hrt i hi) (H.hru _ he) (R (off numNeigh i + j))
    rw [hG i hi j hj] at this
    exact (Option.some.inj this).symm
  refine ⟨st', h1, h2, ?_, h4, ?_, h6⟩
  · intro i hi
    rw [h3 i hi, Finset.sum_congr rfl (fun j hj => hEe i hi j (Finset.mem_range.mp hj))]
  · intro i hi j hj a ha
    rw [h5 i hi j hj a ha, hGe i hi j hj]

/-- Two atoms seeing each other meet the size hypotheses of C18. -/
example : let nn := [1, 1]
    off nn 2 = 2 ∧ (∀ i < 2, nn[i]? = some 1) ∧ (∀ e < off nn 2, [1, 0][e]? = some (1 - e)) := by
  refine ⟨rfl, ?_, ?_⟩
  · intro i hi; interval_cases i <;> rfl
  · intro e he
    have : e < 2 := he
    interval_cases e <;> rfl

end Verif.Props
