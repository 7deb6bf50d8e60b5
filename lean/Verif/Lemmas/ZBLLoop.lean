import Verif.Lemmas.ZBL

/-! # Helper lemmas: the accumulation loop `compute_ZBL` (C18) -/

namespace Verif.ZBLModel
open Verif.Spec

/-- The inputs of `compute_ZBL` as functions: node `i` has type `t i` and `n i` neighbours; edge `e` has neighbour
type `u e`, length `R e`, vector `X e`; type `t` has atomic number `Z t`, whose covalent radius is `rho`. -/
structure Reads (z : ZBL) (N : ℕ) (nodeTypes numNeigh neighTypes atomicNumbers : List ℕ) (r xyz : List ℝ)
    (t n u Z : ℕ → ℕ) (R : ℕ → ℝ) (X : ℕ → ℕ → ℝ) (rho : ℕ → ℝ) : Prop where
  ht : ∀ i < N, nodeTypes[i]? = some (t i)
  hn : ∀ i < N, numNeigh[i]? = some (n i)
  hu : ∀ e < off numNeigh N, neighTypes[e]? = some (u e)
  hZt : ∀ i < N, atomicNumbers[t i]? = some (Z (t i))
  hZu : ∀ e < off numNeigh N, atomicNumbers[u e]? = some (Z (u e))
  hR : ∀ e < off numNeigh N, r[e]? = some (R e)
  hX : ∀ e < off numNeigh N, ∀ a < 3, xyz[3 * e + a]? = some (X e a)
  hrt : ∀ i < N, z.rad[Z (t i)]? = some (rho (Z (t i)))
  hru : ∀ e < off numNeigh N, z.rad[Z (u e)]? = some (rho (Z (u e)))

theorem edgeBody_acts {z : ZBL} {c : Fin 4 → ℝ} {p : ℕ} (hz : z.WF c p) {Zi Zj tj i e : ℕ} {ρi ρj rij : ℝ}
    {x : ℕ → ℝ} {neighTypes atomicNumbers : List ℕ} {r xyz : List ℝ} {L : Bool → ℕ}
    (h1 : neighTypes[e]? = some tj) (h2 : atomicNumbers[tj]? = some Zj) (h3 : r[e]? = some rij)
    (h4 : z.rad[Zi]? = some ρi) (h5 : z.rad[Zj]? = some ρj) (h6 : ∀ a < 3, xyz[3 * e + a]? = some (x a))
    (hi : i < L false) (he : 3 * e + 2 < L true) :
    Acts L (z.edgeBody i Zi neighTypes atomicNumbers r xyz e)
      (fun b q w => if b = false then
          (if q = i then w + zblEnergy z.aExp z.aPre c (ρi + ρj) p Zi Zj rij else w)
        else if q / 3 = e then w - x (q % 3) / rij * zblGrad z.aExp z.aPre c (ρi + ρj) p Zi Zj rij else w) := by
  have x0 : xyz[3 * e]? = some (x 0) := h6 0 (by omega)
  have x1 := h6 1 (by omega)
  have x2 := h6 2 (by omega)
  have hA := ((((Acts.modAt (L := L) (b := false) hi
      (fun w => w + zblEnergy z.aExp z.aPre c (ρi + ρj) p Zi Zj rij)).bind
    (Acts.modAt (L := L) (b := true) (i := 3 * e) (by omega)
      (fun w => w - x 0 / rij * zblGrad z.aExp z.aPre c (ρi + ρj) p Zi Zj rij))).bind
    (Acts.modAt (L := L) (b := true) (i := 3 * e + 1) (by omega)
      (fun w => w - x 1 / rij * zblGrad z.aExp z.aPre c (ρi + ρj) p Zi Zj rij))).bind
    (Acts.modAt (L := L) (b := true) (i := 3 * e + 2) (by omega)
      (fun w => w - x 2 / rij * zblGrad z.aExp z.aPre c (ρi + ρj) p Zi Zj rij)))
  refine (hA.of_eq ?_).congr ?_
  · intro s _
    simp only [ZBL.edgeBody, h1, h2, h3, compute_eq hz h4 h5, computeGradient_eq hz h4 h5, x0, x1, x2,
      Option.bind_eq_bind, Option.bind_some, Option.bind_assoc]
  · intro b q hq w
    cases b
    · simp
    · simp only [Bool.true_eq_false, false_and, if_false, true_and]
      by_cases hqe : q / 3 = e
      · have hm : q % 3 = 0 ∨ q % 3 = 1 ∨ q % 3 = 2 := by omega
        rcases hm with hm | hm | hm
        · have : q = 3 * e := by omega
          subst this
          simp
        · have : q = 3 * e + 1 := by omega
          subst this
          simp [hqe, hm]
        · have : q = 3 * e + 2 := by omega
          subst this
          simp [hqe, hm]
      · have a0 : q ≠ 3 * e := by omega
        have a1 : q ≠ 3 * e + 1 := by omega
        have a2 : q ≠ 3 * e + 2 := by omega
        simp [hqe, a0, a1, a2]

section
variable {z : ZBL} {N : ℕ} {nodeTypes numNeigh neighTypes atomicNumbers : List ℕ} {r xyz : List ℝ}
  {t n u Z : ℕ → ℕ} {R : ℕ → ℝ} {X : ℕ → ℕ → ℝ} {rho : ℕ → ℝ}

/-- Pair energy on edge `e` of node `i`. -/
noncomputable def pairE (z : ZBL) (c : Fin 4 → ℝ) (p : ℕ) (t u Z : ℕ → ℕ) (R rho : ℕ → ℝ) (i e : ℕ) : ℝ :=
  zblEnergy z.aExp z.aPre c (rho (Z (t i)) + rho (Z (u e))) p (Z (t i)) (Z (u e)) (R e)

/-- Pair gradient on edge `e` of node `i`. -/
noncomputable def pairG (z : ZBL) (c : Fin 4 → ℝ) (p : ℕ) (t u Z : ℕ → ℕ) (R rho : ℕ → ℝ) (i e : ℕ) : ℝ :=
  zblGrad z.aExp z.aPre c (rho (Z (t i)) + rho (Z (u e))) p (Z (t i)) (Z (u e)) (R e)

theorem computeZBL_acts {c : Fin 4 → ℝ} {p : ℕ} (hz : z.WF c p)
    (H : Reads z N nodeTypes numNeigh neighTypes atomicNumbers r xyz t n u Z R X rho) {L : Bool → ℕ}
    (hE : N ≤ L false) (hF : 3 * off numNeigh N ≤ L true) :
    Acts L (z.computeZBL N nodeTypes numNeigh neighTypes atomicNumbers r xyz)
      (fun b q w => iter N (fun i => iter (n i) (fun j w =>
        if b = false then (if q = i then w + pairE z c p t u Z R rho i (off numNeigh i + j) else w)
        else if q / 3 = off numNeigh i + j then
          w - X (off numNeigh i + j) (q % 3) / R (off numNeigh i + j) * pairG z c p t u Z R rho i (off numNeigh i + j)
        else w)) w) := by
  have hA := Acts.loop (L := L) (n := N) (fun i hi => Acts.loop (L := L) (n := n i) (fun j hj => by
    have he := off_add_lt hi (H.hn i hi) hj
    exact edgeBody_acts (i := i) (e := off numNeigh i + j) hz (H.hu _ he) (H.hZu _ he) (H.hR _ he) (H.hrt i hi)
      (H.hru _ he) (H.hX _ he) (by omega) (by omega)))
  refine hA.of_eq ?_
  intro s _
  unfold ZBL.computeZBL
  rw [nodeLoop_eq (nn := numNeigh) (B := fun i => loop (n i) (fun j =>
    z.edgeBody i (Z (t i)) neighTypes atomicNumbers r xyz (off numNeigh i + j)))]
  · simp [Option.map_map, Function.comp_def]
  · intro i hi s
    simp only [H.ht i hi, H.hZt i hi, H.hn i hi, Option.bind_eq_bind, Option.bind_some]
    rw [edgesFrom_eq, off_succ (H.hn i hi)]

/-- Result of `compute_ZBL` cell by cell. -/
theorem computeZBL_run {c : Fin 4 → ℝ} {p : ℕ} (hz : z.WF c p)
    (H : Reads z N nodeTypes numNeigh neighTypes atomicNumbers r xyz t n u Z R X rho) (st : Bufs Bool ℝ)
    (hE : N ≤ (st false).length) (hF : 3 * off numNeigh N ≤ (st true).length) :
    ∃ st', z.computeZBL N nodeTypes numNeigh neighTypes atomicNumbers r xyz st = some st' ∧
      (∀ b, (st' b).length = (st b).length) ∧
      (∀ i < N, (st' false)[i]? = (st false)[i]?.map
        (· + ∑ j ∈ Finset.range (n i), pairE z c p t u Z R rho i (off numNeigh i + j))) ∧
      (∀ i ≥ N, (st' false)[i]? = (st false)[i]?) ∧
      (∀ i < N, ∀ j < n i, ∀ a < 3, (st' true)[3 * (off numNeigh i + j) + a]? =
        (st true)[3 * (off numNeigh i + j) + a]?.map (fun w => w - X (off numNeigh i + j) a /
          R (off numNeigh i + j) * pairG z c p t u Z R rho i (off numNeigh i + j))) ∧
      (∀ q ≥ 3 * off numNeigh N, (st' true)[q]? = (st true)[q]?) := by
  refine ⟨_, computeZBL_acts hz H (L := fun b => (st b).length) hE hF st (fun _ => rfl), ?_, ?_, ?_, ?_, ?_⟩
  · intro b; simp
  · intro i hi
    rw [List.getElem?_mapIdx]
    congr 1
    funext w
    simp only [if_true]
    rw [iter_single i hi]
    · rw [iter_add (v := fun j => pairE z c p t u Z R rho i (off numNeigh i + j))]
      intro j _ x; simp
    · intro i' hi' hne x
      apply iter_id
      intro j _ x
      rw [if_neg (fun h => hne h.symm)]
  · intro i hi
    rw [List.getElem?_mapIdx]
    refine option_map_id_of (fun w => ?_) _
    beta_reduce
    apply iter_id
    intro i' hi' x
    apply iter_id
    intro j _ x
    simp only [if_true]
    rw [if_neg (by omega)]
  · intro i hi j hj a ha
    rw [List.getElem?_mapIdx]
    congr 1
    funext w
    simp only [Bool.true_eq_false, if_false]
    rw [iter_edge hi (H.hn i hi) hj H.hn]
    · have e1 : (3 * (off numNeigh i + j) + a) / 3 = off numNeigh i + j := by omega
      have e2 : (3 * (off numNeigh i + j) + a) % 3 = a := by omega
      rw [e1, e2, if_pos rfl]
    · intro i' hi' j' hj' hne x
      rw [if_neg]
      omega
  · intro q hq
    rw [List.getElem?_mapIdx]
    refine option_map_id_of (fun w => ?_) _
    beta_reduce
    apply iter_id
    intro i hi x
    apply iter_id
    intro j hj x
    have := off_add_lt hi (H.hn i hi) hj
    simp only [Bool.true_eq_false, if_false]
    rw [if_neg (by omega)]

end

end Verif.ZBLModel
