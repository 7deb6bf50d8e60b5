import Verif.Lemmas.Extract.Run
import Verif.Props.Kokkos

/-! # Property theorems: the extraction script (C78-C82) -/

namespace Verif.Props
open Verif.MACE Verif.Spec Verif.Extract

section
variable {M : Torch} {cg : ℕ → ℕ → ℕ → ℕ → ℝ} {n : ℕ} {der : List ℝ → List ℝ} {inv : ℕ → (ℕ → ℕ → ℝ) → Option (ℕ → ℕ → ℝ)}
  {species : List ℕ}

/-- C78: for distinct requested elements the script succeeds exactly if the model knows all of them and the matrix can be inverted;
the file lists the requested elements (all of the model if none is requested) in increasing order, has the shape both evaluators
need, and `num_elements` elements. -/
theorem C78_file_shape (h : TorchOk M cg) (hn : 2 ≤ n) (hd : ∀ v, (der v).length = v.length) (hsp : species.Nodup) :
    ((∃ f, extract n der inv species M = some f) ↔
      (∀ a ∈ species, a ∈ M.zs) ∧ ∃ B, inv M.C (fun k' k => M.up1 (k' * M.C + k) / Real.sqrt M.C) = some B) ∧
    ∀ f, extract n der inv species M = some f → FileOk f ∧ FileOkK f f.atomicNumbers.length ∧ f.atomicNumbers.Pairwise (· < ·) ∧
      ∀ a, a ∈ f.atomicNumbers ↔ a ∈ (if species = [] then M.zs else species) := by
  have key : (∀ a ∈ species, a ∈ M.zs) ↔ ∀ a ∈ elems M species, a ∈ M.zs := by
    constructor
    · intro hh a ha
      rw [mem_elems] at ha
      split_ifs at ha with hs
      · exact ha
      · exact hh a ha
    · intro hh a ha
      refine hh a (mem_elems.mpr ?_)
      rw [if_neg (List.ne_nil_of_mem ha)]
      exact ha
  refine ⟨⟨?_, ?_⟩, ?_⟩
  · rintro ⟨f, hf⟩
    obtain ⟨-, ha, us, u1, inv1, -, -, -, hi⟩ := extract_some hf
    exact ⟨key.mpr ha, inv1, hi⟩
  · rintro ⟨ha, B, hB⟩
    exact extract_runs h.lmax (key.mp ha) hB
  · intro f hf
    obtain ⟨-, ha, us, u1, inv1, rfl, hs, hs1, hi⟩ := extract_some hf
    have hel := elems_ok h hsp ha
    exact ⟨fileOk h hel hn hd hs hs1, fileOkK h hd hs hs1, hel.lt, fun a => mem_elems⟩

/-- C79: the network that the file describes is the PyTorch network with its radial functions (and edge densities) replaced by the
splines through their tables: fusing of weights, rescaling, dropping of small tensor entries and the inverse of the linear map cancel. -/
theorem C79_network (h : TorchOk M cg) (hsp : species.Nodup) (hi : InvOk inv) {f : File} (hf : extract n der inv species M = some f)
    (sph : ℝ → ℝ → ℝ → ℕ → ℝ) {T : Sys} (hT : SysOk f T) (X : ℕ → ℕ → ℝ)
    (_ : ScalesNonzero f sph T X) : ∀ i < T.N,
      energy (netOf f) (confOf f sph T X) i
        = torchEnergy M (M.radials.map (splineOf M.rcut n der)) cg (sceneOf M f.atomicNumbers sph T X) i := by
  intro i hiN
  obtain ⟨-, ha, us, u1, inv1, rfl, hs, hs1, hinv⟩ := extract_some hf
  exact energy_eq h (elems_ok h hsp ha) hT hs hs1 (fun a ha b hb => hi _ _ _ hinv a ha b hb) hiN

/-- C79: the evaluators on the extracted file return the energies of that network, for every history of the objects, and the Kokkos
evaluator for every environment. -/
theorem C79_evaluators (h : TorchOk M cg) (hn : 2 ≤ n) (hd : ∀ v, (der v).length = v.length) (hsp : species.Nodup) (hi : InvOk inv)
    {f : File} (hf : extract n der inv species M = some f) (srt : List (List (List ℕ)) → List (List (List ℕ)))
    (hs : Poly.SortFn srt)
    (sph : ℝ → ℝ → ℝ → ℕ → ℝ) (dsph : ℝ → ℝ → ℝ → ℕ → ℕ → ℝ) (junk : ℕ → ℕ → ℝ) :
    ∃ P s0 Q, MACE.load srt sph dsph f = some (P, s0) ∧
      Kokkos.load srt sph dsph junk f.atomicNumbers.length f = some (Q, Kokkos.State.init ℝ) ∧
      ∀ T X, SysOk f T → Inside f T X → ScalesNonzero f sph T X → ∀ s, Hist f P s0 s → ∀ t, HistK f Q t → ∀ V : Kokkos.Env ℝ,
        ∃ s' t' E, computeNodeEnergiesForces f.zbl P (T.graph X) s = some s' ∧ Kokkos.compute V Q f.zbl (T.graph X) t = some t' ∧
          s'.nodeEnergies = E ∧ ZeroPadded t'.energies E ∧ E.length = T.N ∧
          ∀ i < T.N, E[i]? = some (torchEnergy M (M.radials.map (splineOf M.rcut n der)) cg (sceneOf M f.atomicNumbers sph T X) i) := by
  obtain ⟨hok, hokK, -, -⟩ := (C78_file_shape (inv := inv) h hn hd hsp).2 f hf
  obtain ⟨P, s0, Q, e1, e2, e3⟩ := C62_kokkos_equals_cpu (sph := sph) (dsph := dsph) (junk := junk) hok hokK hs
  obtain ⟨P', s0', k1, k2⟩ := C04_node_energies f sph dsph hok hs
  rw [e1] at k1
  cases k1
  refine ⟨P, s0, Q, e1, e2, fun T X hT hX hsc s hh t ht V => ?_⟩
  obtain ⟨s', t', a1, a2, a3, -, a4, -⟩ := e3 T X hT hX s hh t ht V
  obtain ⟨s'', b1, -, b2⟩ := k2 s hh T hT X hX hsc
  rw [a1] at b1
  cases b1
  refine ⟨s', t', _, a1, a2, rfl, a4, a3, fun i hiN => ?_⟩
  rw [b2 i hiN, C79_network h hsp hi hf sph hT X hsc i hiN]

/-- C80, what holds: if no element is requested twice, the table at the position of a pair of types is that of their elements.
Missing: repeated elements, see `C80_violated`. -/
theorem C80_pair_tables_partial (h : TorchOk M cg) (hsp : species.Nodup) {f : File} (hf : extract n der inv species M = some f) {a b : ℕ}
    (ha : a < f.nT) (hb : b < f.nT) :
    tbl f.vals0 (pairPos f.nT a b) = radialTable M.rcut n ((M.lmax + 1) * M.C)
      (M.R0 (M.zs.idxOf (nthN f.atomicNumbers a)) (M.zs.idxOf (nthN f.atomicNumbers b))) := by
  obtain ⟨-, hm, us, u1, inv1, rfl, -⟩ := extract_some hf
  have := pair_table (elems_ok h hsp hm).lt (fun p => radialTable M.rcut n ((M.lmax + 1) * M.C) (M.R0 (index M.zs p.1) (index M.zs p.2))) ha hb
    (fun x y => by simp only []; rw [h.R0])
  exact congrArg (fun o => o.getD []) this

/-- C80 fails: if hydrogen is requested twice, together with carbon, the file has seven tables for the three types H, H, C (there are
six pairs), and the evaluator reads the table of H and C for two carbon atoms. -/
theorem C80_violated {f : File} (hf : extract n der inv [1, 6, 1] M = some f) :
    f.atomicNumbers = [1, 1, 6] ∧ f.vals0.length = 7 ∧ (pairList f.nT).length = 6 ∧
    tbl f.vals0 (pairPos f.nT 2 2) = radialTable M.rcut n ((M.lmax + 1) * M.C) (M.R0 (M.zs.idxOf 1) (M.zs.idxOf 6)) := by
  obtain ⟨-, hm, us, u1, inv1, rfl, -⟩ := extract_some hf
  have e : elems M [1, 6, 1] = [1, 1, 6] := rfl
  rw [e]
  exact ⟨rfl, rfl, rfl, rfl⟩

/-- C81: coefficients and monomials in the file are the symmetric contractions of the PyTorch model: same value at every argument, for
every element, component and channel of the first product, and every element and channel of the second. -/
theorem C81_contractions (h : TorchOk M cg) {f : File} (hf : extract n der inv species M = some f) (i k : ℕ) (x : ℕ → ℝ) :
    (∀ LM < (f.Lmax + 1) * (f.Lmax + 1), polynomial (f.M0w i LM k) (f.M0mon LM) x
      = ∑ corr ∈ {1, 2, 3}, ∑ eta ∈ Finset.range (M.nEta0 (Nat.sqrt LM) corr),
          M.W0 (Nat.sqrt LM) corr (M.zs.idxOf (nthN f.atomicNumbers i)) eta k
            * contraction 16 corr (fun t => M.U0 (Nat.sqrt LM) corr (LM - Nat.sqrt LM * Nat.sqrt LM) t eta) x) ∧
    polynomial (f.M1w i k) f.M1mon x
      = ∑ corr ∈ {1, 2, 3}, ∑ eta ∈ Finset.range (M.nEta1 corr), M.W1 corr (M.zs.idxOf (nthN f.atomicNumbers i)) eta k
          * contraction 16 corr (fun t => M.U1 corr t eta) x := by
  obtain ⟨hl, -, us, u1, inv1, rfl, hs, hs1, -⟩ := extract_some hf
  set an := elems M species
  have h16 : (M.lmax + 1) * (M.lmax + 1) = 16 := by rw [hl]
  refine ⟨fun LM hLM => ?_, ?_⟩
  · have hLM' : LM < (M.Lmax + 1) * (M.Lmax + 1) := hLM
    show polynomial ((poly0 M an us i LM k).map Prod.snd) (poly0 M an us (an.length - 1) LM (M.C - 1)).keys x = _
    rw [poly0_keys LM (an.length - 1) (M.C - 1) i k]
    refine (polynomial_dict _ x).trans ?_
    rw [poly0_eq hLM', poly_contraction (U := M.U0 (Nat.sqrt LM)) (h.U0 _) (hs _ (sqrt_le_of_lt hLM')) (sqrt_split LM).1, h16, getD_nthN]
    rfl
  · show polynomial ((poly1 M an u1 i k).map Prod.snd) (poly1 M an u1 (an.length - 1) (M.C - 1)).keys x = _
    rw [poly1_keys (an.length - 1) (M.C - 1) i k]
    refine (polynomial_dict _ x).trans ?_
    unfold poly1
    rw [poly_contraction (nm := 1) (U := fun corr _ t eta => M.U1 corr t eta) (fun corr _ t eta => h.U1 corr t eta) hs1 (by omega), h16, getD_nthN]
    rfl

/-- C82: the coupling table in the file is the tensor product of the PyTorch model, for all features, harmonics and weights: output
component `mu` of path `le` in channel `k` is the sum over the table's entries for that output.  In PyTorch's order of features, component
`lm = l² + m` in channel `k` is at `l² C + k (2l + 1) + m`. -/
theorem C82_tensor_product (h : TorchOk M cg) {f : File} (hf : extract n der inv species M = some f) (H Y R : ℕ → ℝ) {le k mu : ℕ}
    (hle : le < f.phil.length) (hk : k < f.numChannels) (hmu : mu < 2 * nthN f.phil le + 1) :
    M.tp H Y R (((f.phil.take le).map (fun l => 2 * l + 1)).sum * f.numChannels + k * (2 * nthN f.phil le + 1) + mu)
      = ∑ p ∈ Finset.range f.cg.length, if nthN f.philme p = (netOf f).base (nthN f.phil le) + mu * f.phil.count (nthN f.phil le)
            + (f.phil.take le).count (nthN f.phil le) then
          nth f.cg p * (let c := f.couplings[nthN f.philelm p]?.getD (0, 0, 0)
            R (c.1 * f.numChannels + k) * Y c.2.1 * H (Nat.sqrt c.2.2 * Nat.sqrt c.2.2 * f.numChannels
              + k * (2 * Nat.sqrt c.2.2 + 1) + (c.2.2 - Nat.sqrt c.2.2 * Nat.sqrt c.2.2)))
        else 0 := by
  obtain ⟨-, -, us, u1, inv1, rfl, -⟩ := extract_some hf
  refine (h.tp H Y R le hle k hk mu hmu).trans (Eq.symm ?_)
  refine (pick (n := n) (der := der) (an := elems M species) (us := us) (u1 := u1) (inv1 := inv1) h (fun c =>
    R ((netOf (fileOf n der M (elems M species) us u1 inv1)).qp c * M.C + k) * Y ((netOf (fileOf n der M (elems M species) us u1 inv1)).q1 c)
      * H (Nat.sqrt ((netOf (fileOf n der M (elems M species) us u1 inv1)).q2 c) * Nat.sqrt ((netOf (fileOf n der M (elems M species) us u1 inv1)).q2 c) * M.C
        + k * (2 * Nat.sqrt ((netOf (fileOf n der M (elems M species) us u1 inv1)).q2 c) + 1)
        + ((netOf (fileOf n der M (elems M species) us u1 inv1)).q2 c
          - Nat.sqrt ((netOf (fileOf n der M (elems M species) us u1 inv1)).q2 c) * Nat.sqrt ((netOf (fileOf n der M (elems M species) us u1 inv1)).q2 c)))) hle hmu).trans ?_
  rw [Finset.mul_sum]
  refine Finset.sum_congr rfl (fun m1 hm1 => ?_)
  rw [Finset.mul_sum]
  refine Finset.sum_congr rfl (fun m2 hm2 => ?_)
  obtain ⟨b1, b2, b3⟩ := chan_eq (n := n) (der := der) (an := elems M species) (us := us) (u1 := u1) (inv1 := inv1) hle (Finset.mem_range.mp hm1)
    (Finset.mem_range.mp hm2)
  simp only [b1, b2, b3, sqrt_add (Finset.mem_range.mp hm2)]
  rw [Nat.add_sub_cancel_left]
  ring

end
end Verif.Props
