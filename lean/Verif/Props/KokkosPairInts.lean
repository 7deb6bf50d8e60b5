import Verif.Lemmas.KokkosPairInts
import Verif.Props.KokkosInt
import Verif.Props.LammpsInts

/-!
# C121: sizes and offsets the Kokkos pair style computes in `int`

`FileFitsK`, `SysFitsK` are the products that have to be below `2^31` for the evaluator (C110).
-/

namespace Verif.Props
open Verif.MACE Verif.Spec Verif.IntIndex Verif.LammpsInts

variable {f : File} {T : Sys} {P0 : ℕ → ℕ} {P1 : ℕ}

/-- C121, `no_domain_decomposition`: the pair style overflows exactly when the evaluator does. -/
theorem C121_single (hn : T.N ≤ T.nn.length) (cell : Kok.Cells) (vflag : Bool) :
    LammpsInts.Kok.single f P0 P1 T cell vflag = some () ↔ Kok.computeInts f P0 P1 T cell = some () :=
  LammpsInts.Kok.single_iff hn cell vflag

/-- C121, `mpi_message_passing`: exactly the evaluator, the number of atoms and the messages set limits; ghosts do not count in products
with the number of features.  No product is assumed to fit. -/
theorem C121_mpi (hC : 1 ≤ f.numChannels) (hn : T.N ≤ T.nn.length) (cell : Kok.Cells) {nghost : ℕ} {sent : List (List ℕ)}
    {got : List (ℕ × ℕ)} (hg : ∀ m ∈ got, m.2 + m.1 ≤ T.N + nghost) (vflag : Bool) :
    LammpsInts.Kok.mpi f P0 P1 T cell nghost sent got vflag = some () ↔
      Kok.computeInts f P0 P1 T cell = some () ∧ T.N + nghost < 2 ^ 31 ∧
      (∀ l ∈ sent, l.length * ((f.Lmax + 1) * (f.Lmax + 1)) * f.numChannels < 2 ^ 31) ∧
      ∀ m ∈ got, m.1 * ((f.Lmax + 1) * (f.Lmax + 1)) * f.numChannels < 2 ^ 31 :=
  LammpsInts.Kok.mpi_iff hC hn cell hg vflag

/-- C121, `no_mpi_message_passing`: exactly these products have to fit; ghost nodes and their pairs count in the first layer. -/
theorem C121_noMpi (hf : FileOk f) (hT : SysOk f T) {n : ℕ} (hn : n ≤ T.N) (h : FileFitsK f P0 P1) {cell : Kok.Cells}
    (hc : cell.Fit T.E) (nlocal nghost : ℕ) (vflag : Bool) :
    LammpsInts.Kok.noMpi f P0 P1 T n cell nlocal nghost vflag = some () ↔ nlocal + nghost < 2 ^ 31 ∧ GhostFitsK f T.N T.E n :=
  LammpsInts.Kok.noMpi_iff hf hT hn h hc nlocal nghost vflag

/-- C121 with ghosts for inputs within the limits of the evaluator, ghosts included.  (Missing: larger inputs, for which the claim is
false.) -/
theorem C121_noMpi_partial (hf : FileOk f) (hT : SysOk f T) {n : ℕ} (hn : n ≤ T.N) (h : FileFitsK f P0 P1) (h' : SysFitsK f T.N T.E)
    {cell : Kok.Cells} (hc : cell.Fit T.E) {nlocal nghost : ℕ} (ha : nlocal + nghost < 2 ^ 31) (vflag : Bool) :
    LammpsInts.Kok.noMpi f P0 P1 T n cell nlocal nghost vflag = some () :=
  (C121_noMpi hf hT hn h hc nlocal nghost vflag).2 ⟨ha,
    { harm := h'.harm, A0 := h'.A0, M0 := h'.M0, phi1r := lt_of_le_of_lt (Nat.mul_le_mul_right _ hn) h'.phi1r
      H2 := lt_of_le_of_lt (Nat.mul_le_mul_right _ hn) h'.H2 }⟩

/-- C121 with message passing for inputs within the limits of the evaluator whose messages concern at most as many atoms as have
`2^31` features.  (Missing: longer messages, for which the claim is false.) -/
theorem C121_mpi_partial (hf : FileOk f) {NH : ℕ} (hT : SysIn f T NH) (h : FileFitsK f P0 P1) (h' : SysFitsK f T.N T.E)
    {cell : Kok.Cells} (hc : cell.Fit T.E) {nghost : ℕ} (ha : T.N + nghost < 2 ^ 31) {sent : List (List ℕ)} {got : List (ℕ × ℕ)}
    (hg : ∀ m ∈ got, m.2 + m.1 ≤ T.N + nghost)
    (hs : ∀ l ∈ sent, l.length * ((f.Lmax + 1) * (f.Lmax + 1)) * f.numChannels < 2 ^ 31)
    (hr : ∀ m ∈ got, m.1 * ((f.Lmax + 1) * (f.Lmax + 1)) * f.numChannels < 2 ^ 31) (vflag : Bool) :
    LammpsInts.Kok.mpi f P0 P1 T cell nghost sent got vflag = some () :=
  (C121_mpi hf.C hT.nn cell hg vflag).2 ⟨Kok.computeInts_ok hf hT h h' hc, ha, hs, hr⟩

/-- C121 is violated in `mpi_message_passing`: 4194304 atoms without neighbours are within the limits of the evaluator, but a message
with all of them is not. -/
theorem C121_mpi_violated (cell : Kok.Cells) (vflag : Bool) : FileOk (fileC 128) ∧ FileFitsK (fileC 128) (fun _ => 0) 0 ∧
    SysOk (fileC 128) (alone 4194304) ∧ SysFitsK (fileC 128) (alone 4194304).N (alone 4194304).E ∧
    LammpsInts.Kok.mpi (fileC 128) (fun _ => 0) 0 (alone 4194304) cell 0 [List.range 4194304] [] vflag ≠ some () := by
  refine ⟨fileC_ok (by norm_num), fileC_fitsK, alone_ok _ _,
    fileC_sysK (show (4194304 : ℕ) ≤ 16777215 by norm_num) (by rw [alone_E]; omega), fun h => ?_⟩
  have := ((C121_mpi (f := fileC 128) (by change 1 ≤ 128; norm_num) (alone_ok 128 4194304).nn cell (fun _ hm => absurd hm List.not_mem_nil) vflag).1
    h).2.2.1 _ List.mem_cons_self
  rw [List.length_range] at this
  change 4194304 * ((1 + 1) * (1 + 1)) * 128 < 2 ^ 31 at this
  norm_num at this

/-- C121 is violated in `no_mpi_message_passing`: one local atom whose pairs are within the limits, the pairs of the ghosts are not. -/
theorem C121_noMpi_violated {cell : Kok.Cells} (hc : cell.Fit 44739244) (vflag : Bool) :
    SysOk (fileC 128) (star 22369622) ∧ SysFitsK (fileC 128) 1 (loc (star 22369622) 1).E ∧
    LammpsInts.Kok.noMpi (fileC 128) (fun _ => 0) 0 (star 22369622) 1 cell 1 22369622 vflag ≠ some () := by
  refine ⟨star_ok _ _, fileC_sysK (by norm_num) (by rw [star_loc]; norm_num), fun h => ?_⟩
  have := ((C121_noMpi (fileC_ok (by norm_num)) (star_ok 128 22369622) (Nat.succ_le_succ (Nat.zero_le 22369622)) fileC_fitsK
    (by rw [star_E]; exact hc) 1 22369622 vflag).1 h).2.harm
  rw [star_E] at this
  change 3 * (2 * 22369622) * ((3 + 1) * (3 + 1)) < 2 ^ 31 at this
  norm_num at this

/-- The 4194304 local and ghost atoms with which the CPU pair style overflows (C120) are no problem here. -/
example : LammpsInts.Kok.mpi (fileC 128) (fun _ => 0) 0 (alone 1) ⟨id, id, id, id⟩ 4194303 [[0]] [(5, 1)] true = some () := by
  refine C121_mpi_partial (fileC_ok (by norm_num)) (alone_ok 128 1) fileC_fitsK
    (fileC_sysK (show (1 : ℕ) ≤ 16777215 by norm_num) (by rw [alone_E]; omega)) (fun e he => by rw [alone_E] at he; omega)
    (by change 1 + 4194303 < _; norm_num) ?_ ?_ ?_ true
  · intro m hm
    rw [List.mem_singleton.1 hm]
    change 1 + 5 ≤ 1 + 4194303
    norm_num
  · intro l hl
    rw [List.mem_singleton.1 hl]
    change 1 * ((1 + 1) * (1 + 1)) * 128 < _
    norm_num
  · intro m hm
    rw [List.mem_singleton.1 hm]
    change 5 * ((1 + 1) * (1 + 1)) * 128 < _
    norm_num

/-- Non-trivial instance: two atoms that are neighbours of each other, virial wanted. -/
example : LammpsInts.Kok.single (fileC 128) (fun _ => 0) 0 couple ⟨fun _ => 0, fun _ => 0, fun _ => 0, fun _ => 0⟩ true = some () :=
  (C121_single couple_ok.nn _ _).2 (C110_fits_partial (fileC_ok (by norm_num)) couple_ok fileC_fitsK
    (fileC_sysK (by simp [couple]) (by simp [couple, Sys.E])) (fun _ _ => by norm_num))

/-- Non-trivial instance with one local atom and four ghosts around it. -/
example : LammpsInts.Kok.noMpi (fileC 128) (fun _ => 0) 0 (star 4) 1 ⟨fun _ => 0, fun _ => 0, fun _ => 0, fun _ => 0⟩ 1 4 true = some () :=
  C121_noMpi_partial (fileC_ok (by norm_num)) (star_ok 128 4) (by simp [star]) fileC_fitsK
    (fileC_sysK (by simp [star]) (by rw [star_E]; omega)) (fun _ _ => by norm_num) (by norm_num) true

end Verif.Props
