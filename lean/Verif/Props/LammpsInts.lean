import Verif.Lemmas.LammpsInts
import Verif.Props.IntIndex

/-!
# C120: sizes and offsets the CPU pair style computes in `int`

`FileFits`, `SysFits` are the products that have to be below `2^31` for the evaluator (C97).
-/

namespace Verif.Props
open Verif.MACE Verif.Spec Verif.IntIndex Verif.LammpsInts

variable {f : File} {T : Sys}

/-- C120, `no_domain_decomposition`: the pair style overflows exactly when the evaluator does; its own expressions add no limit. -/
theorem C120_single (hn : T.N ≤ T.nn.length) (cell : ℕ → ℕ) (vflag : Bool) :
    single f T cell vflag = some () ↔ computeInts f T cell = some () := single_iff hn cell vflag

/-- C120, `mpi_message_passing`, for inputs whose products fit: there is no overflow exactly when the features of all local and ghost
atoms and every message fit.  (Missing: larger inputs, for which the claim is false.) -/
theorem C120_mpi_partial (hf : FileOk f) (h : FileFits f) (h' : SysFits f T.N T.E) {nlocal nghost : ℕ}
    (hT : SysIn f T (nlocal + nghost)) {cell : ℕ → ℕ} (hc : ∀ e < T.E, cell e + 1 < f.nodes0 ∧ cell e + 1 < f.nodes1)
    {ilist : List ℕ} (hi : ∀ ii < T.N, nthN ilist ii < nlocal + nghost) {sent : List (List ℕ)} {got : List (ℕ × ℕ)}
    (hs : ∀ l ∈ sent, ∀ i ∈ l, i < nlocal + nghost) (hg : ∀ m ∈ got, m.2 + m.1 ≤ nlocal + nghost) (vflag : Bool) :
    mpi f T cell nlocal nghost ilist sent got vflag = some () ↔
      (nlocal + nghost) * ((f.Lmax + 1) * (f.Lmax + 1)) * f.numChannels < 2 ^ 31 ∧
      ∀ l ∈ sent, l.length * ((f.Lmax + 1) * (f.Lmax + 1)) * f.numChannels < 2 ^ 31 :=
  mpi_iff hf h h' hT hc hi hs hg vflag

/-- C120, `no_mpi_message_passing`, when the products fit with the ghost nodes and their pairs included: only the number of all atoms
has to be an `int`.  (Missing: larger inputs, for which the claim is false.) -/
theorem C120_noMpi_partial (hf : FileOk f) (h : FileFits f) (hT : SysOk f T) {n : ℕ} (hn : n ≤ T.N) (h' : SysFits f T.N T.E)
    {cell : ℕ → ℕ} (hc : ∀ e < T.E, cell e + 1 < f.nodes0 ∧ cell e + 1 < f.nodes1) (nlocal nghost : ℕ) (vflag : Bool) :
    noMpi f T n cell nlocal nghost vflag = some () ↔ nlocal + nghost < 2 ^ 31 := noMpi_ok hf h hT hn h' hc nlocal nghost vflag

/-- `no_mpi_message_passing`: ghost nodes count like local ones in the size of `M0_grad`. -/
theorem C120_noMpi_overflow {n nlocal nghost : ℕ} (cell : ℕ → ℕ) (vflag : Bool)
    (h : 2 ^ 31 ≤ T.N * f.numChannels * ((f.Lmax + 1) * (f.Lmax + 1)) * ((f.lmax + 1) * (f.lmax + 1))) :
    noMpi f T n cell nlocal nghost vflag = none := noMpi_none cell vflag h

/-- One local atom, node 0, and `G` ghosts, all neighbours of the local atom and it of them. -/
def star (G : ℕ) : Sys :=
  ⟨G + 1, List.replicate (G + 1) 0, G :: List.replicate G 1, (List.range G).map (· + 1) ++ List.replicate G 0, List.replicate (2 * G) 0⟩

theorem star_E (G : ℕ) : (star G).E = 2 * G := by
  simp [star, Sys.E]
  omega

theorem star_loc (G : ℕ) : (loc (star G) 1).E = G := by simp [star, loc, Sys.E]

theorem star_ok (C G : ℕ) : SysOk (fileC C) (star G) := by
  have hE := star_E G
  have hnT : (fileC C).nT = 1 := rfl
  constructor
  case typ =>
    intro i hi
    have hi' : i < G + 1 := hi
    rw [hnT]
    simp [star, nthN, List.getElem?_replicate, hi']
  case nbr =>
    rw [hE]
    intro e he
    change nthN ((List.range G).map (· + 1) ++ List.replicate G 0) e < G + 1
    rcases Nat.lt_or_ge e G with h | h
    · simp [nthN, List.getElem?_append, h]
    · simp [nthN, List.getElem?_append, List.getElem?_replicate, Nat.not_lt.2 h, show e - G < G by omega]
  case nty =>
    rw [hE]
    intro e he
    rw [hnT]
    simp [star, nthN, List.getElem?_replicate, he]
  case idx => rw [hE]; simp [star]; omega
  case ntypes => rw [hE]; simp [star]
  all_goals simp [star]

/-- C120 is violated in `no_mpi_message_passing`: the local node and its pairs fit, the ghosts make the size of `M0_grad` overflow. -/
theorem C120_noMpi_violated (cell : ℕ → ℕ) (vflag : Bool) : FileOk (fileC 128) ∧ FileFits (fileC 128) ∧
    SysOk (fileC 128) (star 262143) ∧ SysFits (fileC 128) 1 (loc (star 262143) 1).E ∧
    noMpi (fileC 128) (star 262143) 1 cell 1 262143 vflag = none :=
  ⟨fileC_ok (by norm_num), fileC_fits, star_ok _ _, fileC_sys (by norm_num) (by rw [star_loc]; norm_num),
    C120_noMpi_overflow cell vflag (by change 2 ^ 31 ≤ (262143 + 1) * 128 * ((1 + 1) * (1 + 1)) * ((3 + 1) * (3 + 1)); norm_num)⟩

/-- C120 is violated in `mpi_message_passing`: one local atom without neighbours, but 4194304 atoms with the ghosts. -/
theorem C120_mpi_violated (vflag : Bool) : SysFits (fileC 128) (alone 1).N (alone 1).E ∧
    mpi (fileC 128) (alone 1) (fun _ => 0) 1 4194303 [0] [] [] vflag ≠ some () := by
  have hE := alone_E 1
  have hfit : SysFits (fileC 128) (alone 1).N (alone 1).E := fileC_sys (by simp [alone]) (by rw [hE]; omega)
  refine ⟨hfit, fun h => ?_⟩
  have hin : SysIn (fileC 128) (alone 1) (1 + 4194303) :=
    { types := (alone_ok 128 1).types, typ := (alone_ok 128 1).typ, nn := (alone_ok 128 1).nn, idx := (alone_ok 128 1).idx
      nbr := fun e he => by rw [hE] at he; omega
      ntypes := (alone_ok 128 1).ntypes, nty := (alone_ok 128 1).nty }
  have := ((C120_mpi_partial (fileC_ok (by norm_num)) fileC_fits hfit hin (fun e he => by rw [hE] at he; omega)
    (fun ii hii => by have : ii < 1 := hii; interval_cases ii; simp [nthN]) (by simp) (by simp) vflag).1 h).1
  change (1 + 4194303) * ((1 + 1) * (1 + 1)) * 128 < 2147483648 at this
  norm_num at this

/-- Non-trivial instance: two atoms that are neighbours of each other, virial wanted. -/
example : single (fileC 128) couple (fun _ => 0) true = some () :=
  (C120_single couple_ok.nn _ _).2 (C97_fits_partial (fileC_ok (by norm_num)) couple_ok fileC_fits
    (fileC_sys (by simp [couple]) (by simp [couple, Sys.E]))
    (fun e he => by rw [fileC_nodes0 (by norm_num), fileC_nodes1 (by norm_num)]; omega))

/-- Non-trivial instance with a list sent and a message received: the local atom 0 and its ghost 1. -/
example : mpi (fileC 128) ⟨1, [0], [1], [1], [0]⟩ (fun _ => 0) 1 1 [0] [[0]] [(1, 1)] true = some () := by
  have hE : (⟨1, [0], [1], [1], [0]⟩ : Sys).E = 1 := by simp [Sys.E]
  refine (C120_mpi_partial (fileC_ok (by norm_num)) fileC_fits (fileC_sys (by simp) (by rw [hE]; omega)) ?_
    (fun e he => by rw [fileC_nodes0 (by norm_num), fileC_nodes1 (by norm_num)]; omega)
    (fun ii hii => by have : ii < 1 := hii; interval_cases ii; simp [nthN]) (by simp) (by simp) true).2
    ⟨by change (1 + 1) * ((1 + 1) * (1 + 1)) * 128 < _; norm_num, fun l hl => ?_⟩
  · constructor
    case typ => intro i hi; have : i < 1 := hi; interval_cases i; change 0 < 1; omega
    case nbr => rw [hE]; intro e he; interval_cases e; simp [nthN]
    case nty => rw [hE]; intro e he; interval_cases e; change 0 < 1; omega
    case idx => rw [hE]; simp
    case ntypes => rw [hE]; simp
    all_goals simp
  · rw [List.mem_singleton.1 hl]
    change 1 * ((1 + 1) * (1 + 1)) * 128 < _
    norm_num

/-- Non-trivial instance with one local atom and four ghosts around it. -/
example : noMpi (fileC 128) (star 4) 1 (fun _ => 0) 1 4 true = some () :=
  (C120_noMpi_partial (fileC_ok (by norm_num)) fileC_fits (star_ok 128 4) (by simp [star])
    (fileC_sys (by simp [star]) (by rw [star_E]; omega))
    (fun e he => by rw [fileC_nodes0 (by norm_num), fileC_nodes1 (by norm_num)]; omega) 1 4 true).2 (by norm_num)

end Verif.Props
