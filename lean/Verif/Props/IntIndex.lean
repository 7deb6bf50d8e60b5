import Verif.Lemmas.IntIndex.Imp
import Mathlib.Tactic.IntervalCases

/-!
# C97: sizes and offsets computed in `int`

`FileFits`, `SysFits` are the products that have to be below `2^31`.
-/

namespace Verif.Props
open Verif.MACE Verif.Spec Verif.IntIndex

variable {f : File} {T : Sys}

/-- C97 for inputs whose products fit: no `int` expression in `compute_node_energies_forces` overflows.  (Missing: larger inputs, for
which the claim is false.) -/
theorem C97_fits_partial (hf : FileOk f) (hT : SysOk f T) (h : FileFits f) (h' : SysFits f T.N T.E) {cell : ℕ → ℕ}
    (hc : ∀ e < T.E, cell e + 1 < f.nodes0 ∧ cell e + 1 < f.nodes1) : computeInts f T cell = some () :=
  computeInts_ok hf hT h h' hc

/-- The size of `M1_grad` has the number of channels twice as a factor: overflow as soon as `N C² (l_max+1)²` reaches `2^31`. -/
theorem C97_overflow_nodes (cell : ℕ → ℕ)
    (h : 2 ^ 31 ≤ T.N * f.numChannels * ((f.lmax + 1) * (f.lmax + 1)) * f.numChannels) : computeInts f T cell = none :=
  computeInts_none cell (computeM1_none h)

/-- The offset of the last pair in `R0` or `R1`. -/
theorem C97_overflow_edges (hf : FileOk f) (cell : ℕ → ℕ) (hn : T.N ≤ T.nn.length) (hE : 0 < T.E)
    (h : 2 ^ 31 ≤ (T.E - 1) * ((f.lmax + 1) * f.numChannels) ∨ 2 ^ 31 ≤ (T.E - 1) * (f.phil.length * f.numChannels)) :
    computeInts f T cell = none := by
  have hp : 0 < (pairList f.nT).length := by
    rcases Nat.eq_zero_or_pos (pairList f.nT).length with h0 | h0
    · exfalso
      have := hf.nT
      have hm : (0, 0) ∈ pairList f.nT := by simp [pairList]; omega
      rw [List.length_eq_zero_iff.1 h0] at hm
      exact absurd hm (by simp)
    · exact h0
  rcases h with h | h
  · exact computeInts_none0 cell (computeR_none cell hn hE (by rw [show spl0 f = _ from (hf.rows0 0 hp).1]; exact h))
  · exact computeInts_none1 cell (computeR_none cell hn hE (by rw [show spl1 f = _ from (hf.rows1 0 hp).1]; exact h))

/-- A file with `C` channels, `l_max = 3`, `L_max = 1`, one element and four paths. -/
noncomputable def fileC (C : ℕ) : File where
  numChannels := C
  lmax := 3
  Lmax := 1
  atomicNumbers := [8]
  atomicEnergies := [0]
  zbl := none
  splH := 1
  vals0 := [List.replicate (4 * C) [0, 0]]
  ders0 := [List.replicate (4 * C) [0, 0]]
  vals1 := [List.replicate (4 * C) [0, 0]]
  ders1 := [List.replicate (4 * C) [0, 0]]
  H0w := List.replicate C 0
  A0w := [[List.replicate (C * C) 0, List.replicate (C * C) 0, List.replicate (C * C) 0, List.replicate (C * C) 0]]
  A0scaled := false
  A0h := 1
  A0vals := []
  A0ders := []
  M0w _ _ _ := [1]
  M0mon _ := [[0]]
  H1w := List.replicate (2 * C * C) 0
  phil := [0, 1, 2, 3]
  phil1 := [0, 1, 2, 3]
  phil2 := [0, 0, 0, 0]
  philme := [0]
  cg := [1]
  philelm := [0]
  A1w := [List.replicate (C * C) 0, List.replicate (C * C) 0, List.replicate (C * C) 0, List.replicate (C * C) 0]
  A1scaled := false
  A1h := 1
  A1vals := []
  A1ders := []
  M1w _ _ := [1]
  M1mon := [[0]]
  H2wH1 := [List.replicate (C * C) 0]
  H2wM1 := List.replicate (C * C) 0
  ro1 := List.replicate C 0
  ro2w1 := List.replicate (16 * C) 0
  ro2w2 := List.replicate 16 0
  ro2scale := 1

theorem couplings_length (C : ℕ) : (fileC C).couplings.length = 16 := by
  simp [fileC, File.couplings, List.range_succ, nthN]

theorem fileC_nodes0 {C : ℕ} (hC : 0 < C) : (fileC C).nodes0 = 2 := by
  simp [fileC, File.nodes0, tbl, row, List.getElem?_replicate, hC]

theorem fileC_nodes1 {C : ℕ} (hC : 0 < C) : (fileC C).nodes1 = 2 := by
  simp [fileC, File.nodes1, tbl, row, List.getElem?_replicate, hC]

theorem fileC_ok {C : ℕ} (hC : 0 < C) : FileOk (fileC C) := by
  have hp : (pairList (fileC C).nT).length = 1 := by simp [pairList, File.nT, fileC]
  have h0 := fileC_nodes0 hC
  have h1 := fileC_nodes1 hC
  constructor
  case rows0 => rw [hp, h0]; simp [fileC, tbl]
  case rows1 => rw [hp, h1]; simp [fileC, tbl]
  case nodes0 => omega
  case nodes1 => omega
  all_goals first
    | (rw [hp]; simp [fileC]; done)
    | (simp [fileC, File.nT, hC]; done)
    | skip
  case philelm =>
    rw [couplings_length]
    simp [fileC]
  case A1w =>
    refine ⟨by simp [fileC], fun l hl => ?_⟩
    have hl' : l ≤ 3 := hl
    interval_cases l <;> simp [fileC, row]

theorem fileC_fits : FileFits (fileC 128) := by
  have h0 := fileC_nodes0 (C := 128) (by norm_num)
  have h1 := fileC_nodes1 (C := 128) (by norm_num)
  have hc := couplings_length 128
  exact { grad0 := by change (1 + 1) * (1 + 1) * ((3 + 1) * (3 + 1)) * 128 < _; norm_num
          grad1 := by change 128 * ((3 + 1) * (3 + 1)) * 128 < _; norm_num
          phi1r := by rw [hc]; change 16 * 128 < _; norm_num
          phi1 := by change ([0, 1, 2, 3].map (fun l => 2 * l + 1)).sum * 128 < _; norm_num
          polys := by change 1 * ((1 + 1) * (1 + 1)) * 128 < _; norm_num
          mix := by change (1 + 1) * 128 * 128 < _; norm_num
          cg := by change 1 < _; norm_num
          table0 := by rw [h0]; change 4 * 2 * ((3 + 1) * 128) < _; norm_num
          table1 := by rw [h1]; change 4 * 2 * (4 * 128) < _; norm_num }

theorem fileC_sys {N E : ℕ} (hN : N ≤ 8191) (hE : E ≤ 4194303) : SysFits (fileC 128) N E := by
  have hc := couplings_length 128
  exact { harm := by change 3 * E * ((3 + 1) * (3 + 1)) < 2147483648; omega
          rad0 := by change E * ((3 + 1) * 128) < 2147483648; omega
          rad1 := by change E * (4 * 128) < 2147483648; omega
          grad0 := by change N * ((1 + 1) * (1 + 1)) * ((3 + 1) * (3 + 1)) * 128 < 2147483648; omega
          grad1 := by change N * 128 * ((3 + 1) * (3 + 1)) * 128 < 2147483648; omega
          phi1r := by rw [hc]; change N * 16 * 128 < 2147483648; omega
          phi1 := by change N * 16 * 128 < 2147483648; omega }

/-- `N` atoms without neighbours. -/
def alone (N : ℕ) : Sys := ⟨N, List.replicate N 0, List.replicate N 0, [], []⟩

theorem alone_E (N : ℕ) : (alone N).E = 0 := by simp [alone, Sys.E]

theorem alone_ok (C N : ℕ) : SysOk (fileC C) (alone N) := by
  constructor
  case typ => intro i hi; simp only [alone, nthN, List.getElem?_replicate, fileC, File.nT] at *; simp [hi]
  case nbr => intro e he; rw [alone_E] at he; omega
  case nty => intro e he; rw [alone_E] at he; omega
  case idx => rw [alone_E]; omega
  case ntypes => rw [alone_E]; omega
  all_goals simp [alone]

/-- C97 is violated by a model of usual size (128 channels, `l_max = 3`) with 8192 atoms, though they have no neighbours. -/
theorem C97_violated (cell : ℕ → ℕ) : FileOk (fileC 128) ∧ FileFits (fileC 128) ∧ SysOk (fileC 128) (alone 8192) ∧
    computeInts (fileC 128) (alone 8192) cell = none :=
  ⟨fileC_ok (by norm_num), fileC_fits, alone_ok 128 8192, C97_overflow_nodes cell (by change 2 ^ 31 ≤ 8192 * 128 * ((3 + 1) * (3 + 1)) * 128; norm_num)⟩

/-- One atom fewer, and no overflow. -/
example : computeInts (fileC 128) (alone 8191) (fun _ => 0) = some () :=
  C97_fits_partial (fileC_ok (by norm_num)) (alone_ok 128 8191) fileC_fits
    (fileC_sys le_rfl (by rw [alone_E]; omega))
    (fun e he => by rw [alone_E] at he; omega)

/-- Two atoms that are neighbours of each other. -/
def couple : Sys := ⟨2, [0, 0], [1, 1], [1, 0], [0, 0]⟩

theorem couple_ok : SysOk (fileC 128) couple := by
  have hE : couple.E = 2 := by simp [couple, Sys.E]
  constructor
  case typ => intro i hi; have : i < 2 := hi; interval_cases i <;> (change 0 < 1; omega)
  case nbr => rw [hE]; intro e he; interval_cases e <;> simp [couple, nthN]
  case nty => rw [hE]; intro e he; interval_cases e <;> (change 0 < 1; omega)
  case idx => rw [hE]; simp [couple]
  case ntypes => rw [hE]; simp [couple]
  all_goals simp [couple]

/-- Non-trivial instance with pairs. -/
example : computeInts (fileC 128) couple (fun _ => 0) = some () :=
  C97_fits_partial (fileC_ok (by norm_num)) couple_ok fileC_fits
    (fileC_sys (by simp [couple]) (by simp [couple, Sys.E]))
    (fun e he => by rw [fileC_nodes0 (by norm_num), fileC_nodes1 (by norm_num)]; omega)

/-- One atom with 4194305 pairs (periodic images of itself). -/
example (cell : ℕ → ℕ) : computeInts (fileC 128) ⟨1, [0], [4194305], List.replicate 4194305 0, List.replicate 4194305 0⟩ cell = none :=
  C97_overflow_edges (fileC_ok (by norm_num)) cell (by simp) (by simp [Sys.E]) (Or.inl (by
    rw [show (⟨1, [0], [4194305], List.replicate 4194305 0, List.replicate 4194305 0⟩ : Sys).E = 4194305 by simp [Sys.E]]
    change 2 ^ 31 ≤ (4194305 - 1) * ((3 + 1) * 128); norm_num))

end Verif.Props
