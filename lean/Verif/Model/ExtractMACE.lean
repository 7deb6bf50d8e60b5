import Verif.Model.Extract
import Verif.Model.MACE
import Mathlib.Data.List.Sort
import Mathlib.Data.Real.Sqrt

/-!
# Model of `symmetrix/source/symmetrix/extract_mace_data.py` (`extract_mace_data`)

From the loaded PyTorch model (the record `Torch`) to the tables of the JSON file (the record `File` read by `load_from_json`).
A Python exception is `none`.

Simplifications: tensors are functions of flat positions (their sizes are those of the module's contract, so `reshape` succeeds);
`weight_view_for_instruction` and `U_matrix_real` return tensors (functions of their indices); symbols in `species` have been
converted to atomic numbers (lines 44-53); a model with several heads has been reduced to one (lines 60-64); the dictionaries with keys
`0 .. n-1` are functions or lists.  `scipy`'s `CubicSpline` through points, evaluated at the points, returns the values there; its
derivatives there are the parameter `der`; `np.linalg.inv` is the parameter `inv`.
-/

namespace Verif.Extract
open Verif.MACE

/-- What the script reads from the PyTorch model. -/
structure Torch where
  /-- `atomic_numbers` -/
  zs : List ℕ
  /-- number of channels -/
  C : ℕ
  rcut : ℝ
  lmax : ℕ
  Lmax : ℕ
  /-- `atomic_energies_fn.atomic_energies`; `scale_shift` -/
  e0 : ℕ → ℝ
  scale : ℝ
  shift : ℝ
  /-- `pair_repulsion_fn` -/
  zbl : Option ZBLModel.ZBL
  /-- `conv_tp_weights(radial_embedding(r, …))` of the two interactions: two elements, column, distance -/
  R0 : ℕ → ℕ → ℕ → ℝ → ℝ
  R1 : ℕ → ℕ → ℕ → ℝ → ℝ
  /-- `density_fn(radial_embedding(r, …))[:,0]` of the two interactions if they have it -/
  dens0 : Option (ℕ → ℕ → ℝ → ℝ)
  dens1 : Option (ℕ → ℕ → ℝ → ℝ)
  /-- `interactions[·].avg_num_neighbors` -/
  avg0 : ℝ
  avg1 : ℝ
  /-- `node_embedding.linear.weight`, `interactions[0].linear_up.weight` -/
  emb : ℕ → ℝ
  up0 : ℕ → ℝ
  /-- `interactions[0].linear.weight_view_for_instruction(l)` -/
  lin0 : ℕ → ℕ → ℕ → ℝ
  /-- `interactions[0].skip_tp.weight_views()`: `l`, channel, element, channel -/
  skip0 : ℕ → ℕ → ℕ → ℕ → ℝ
  /-- `U_matrix_real(irreps_in, [l], corr)[1]`: `l`, order; number of `eta`; entry `m`, `lm`s, `eta` -/
  nEta0 : ℕ → ℕ → ℕ
  U0 : ℕ → ℕ → ℕ → List ℕ → ℕ → ℝ
  /-- weights of `products[0].symmetric_contractions.contractions[l]` of the order: element, `eta`, channel -/
  W0 : ℕ → ℕ → ℕ → ℕ → ℕ → ℝ
  /-- `products[0].linear.weight`, `interactions[1].linear_up.weight` -/
  plin0 : ℕ → ℝ
  up1 : ℕ → ℝ
  /-- `interactions[1].conv_tp`: angular momentum of the output, of the harmonic and of the node features of each path; the function -/
  phil : List ℕ
  phil1 : List ℕ
  phil2 : List ℕ
  tp : (ℕ → ℝ) → (ℕ → ℝ) → (ℕ → ℝ) → ℕ → ℝ
  /-- `linear_simplify(interactions[1].linear).weight_view_for_instruction(l)` -/
  lin1 : ℕ → ℕ → ℕ → ℝ
  /-- the same for `products[1]`, output `0e` only -/
  nEta1 : ℕ → ℕ
  U1 : ℕ → List ℕ → ℕ → ℝ
  W1 : ℕ → ℕ → ℕ → ℕ → ℝ
  /-- `interactions[1].skip_tp.weight_view_for_instruction(0)`; `products[1].linear.weight` -/
  skip1 : ℕ → ℕ → ℕ → ℝ
  plin1 : ℕ → ℝ
  /-- `readouts[0].linear.weight`; `readouts[1].linear_1.weight`, `linear_2.weight`, `non_linearity.acts[0].cst` -/
  read1 : ℕ → ℝ
  read2a : ℕ → ℝ
  read2b : ℕ → ℝ
  cst : ℝ

/-! ## Elements and radial tables -/

/-- The nested loops `for a_i …: for a_j …: if a_j < a_i: continue`, extract_mace_data.py:150-153, 207-210, 392-395. -/
def elementPairs (an : List ℕ) : List (ℕ × ℕ) := an.flatMap (fun a => (an.filter (fun b => !decide (b < a))).map (fun b => (a, b)))

/-- `model.atomic_numbers.tolist().index(a)` after it succeeded once for `a`. -/
def index (zs : List ℕ) (a : ℕ) : ℕ := zs.idxOf a

/-- Values of the splines for one pair of elements, extract_mace_data.py:163-172 (`n` points, `cols` columns). -/
noncomputable def radialTable (rcut : ℝ) (n cols : ℕ) (R : ℕ → ℝ → ℝ) : List (List ℝ) :=
  (List.range cols).map (fun c => tableOf rcut n (R c))

/-! ## Products -/

/-- A Python dictionary in order of insertion; keys are tuples. -/
abbrev Dict := List (List ℕ × ℝ)

/-- `if key not in d: d[key] = 0.0` and `d[key] += v`, extract_mace_data.py:267-269, 298-300, 447-449, 468-470. -/
noncomputable def Dict.add (d : Dict) (key : List ℕ) (v : ℝ) : Dict :=
  if d.any (fun q => q.1 == key) then d.map (fun q => if q.1 = key then (q.1, q.2 + v) else q) else d ++ [(key, 0 + v)]

/-- `itertools.product(range(M), repeat=corr)`. -/
def tuples (M : ℕ) : ℕ → List (List ℕ)
  | 0 => [[]]
  | c + 1 => (List.range M).flatMap (fun a => (tuples M c).map (fun t => a :: t))

/-- `U_matrix.flatten()`: row-major, `m` first, `eta` last. -/
noncomputable def flatU (nm M corr nEta : ℕ) (U : ℕ → List ℕ → ℕ → ℝ) : List ℝ :=
  (List.range nm).flatMap (fun m => (tuples M corr).flatMap (fun t => (List.range nEta).map (fun eta => U m t eta)))

/-- One entry, extract_mace_data.py:265-270; the state are the dictionaries `U_sparse_corr[m][eta]` and the counter `j`. -/
noncomputable def sparseStep (flat : List ℝ) (m : ℕ) (t : List ℕ) (s : (ℕ → ℕ → Dict) × ℕ) (eta : ℕ) : Option ((ℕ → ℕ → Dict) × ℕ) := do
  let u ← flat[s.2]?
  let D := if 1e-12 < |u| then
      fun m' eta' => if m' = m ∧ eta' = eta then (s.1 m eta).add (t.insertionSort (· ≤ ·)) u else s.1 m' eta'
    else s.1
  some (D, s.2 + 1)

/-- The loops over all entries of one order, extract_mace_data.py:260-270 (440-450 with `nm = 1`). -/
noncomputable def sparseU (nm M corr nEta : ℕ) (flat : List ℝ) : Option (ℕ → ℕ → Dict) :=
  ((List.range nm).foldlM (fun s m => (tuples M corr).foldlM (fun s t => (List.range nEta).foldlM (sparseStep flat m t) s) s)
    ((fun _ _ => []), 0)).map Prod.fst

/-- The polynomial of one channel, extract_mace_data.py:294-300, 464-470: orders 1 to 3, `U corr eta` the dictionaries,
`w corr eta` the weights. -/
noncomputable def polyDict (nEta : ℕ → ℕ) (U : ℕ → ℕ → Dict) (w : ℕ → ℕ → ℝ) : Dict :=
  [1, 2, 3].foldl (fun P corr => (List.range (nEta corr)).foldl (fun P eta =>
    (U corr eta).foldl (fun P q => P.add q.1 (w corr eta * q.2)) P) P) []

/-- `U_sparse(irrep_out, irreps_in, 3)`, extract_mace_data.py:247-272: order, `m`, `eta`. -/
noncomputable def sparseAll (nm M : ℕ) (nEta : ℕ → ℕ) (U : ℕ → ℕ → List ℕ → ℕ → ℝ) : Option (ℕ → ℕ → ℕ → Dict) := do
  let u1 ← sparseU nm M 1 (nEta 1) (flatU nm M 1 (nEta 1) (U 1))
  let u2 ← sparseU nm M 2 (nEta 2) (flatU nm M 2 (nEta 2) (U 2))
  let u3 ← sparseU nm M 3 (nEta 3) (flatU nm M 3 (nEta 3) (U 3))
  some (fun corr => if corr = 1 then u1 else if corr = 2 then u2 else u3)

/-- The entries `lm ↦ (l, l + m)` in the order of the loops, extract_mace_data.py:280, 290-291 (`m` runs from `-l`). -/
def lmKeys (Lmax : ℕ) : List (ℕ × ℕ × ℕ) :=
  (List.range (Lmax + 1)).flatMap (fun l => (List.range (2 * l + 1)).map (fun mu => (l * (l + 1) + mu - l, l, mu)))

/-- Look up a key in the dictionaries `C[i]` and `M`. -/
def lmLookup (Lmax LM : ℕ) : Option (ℕ × ℕ) := ((lmKeys Lmax).find? (fun q => q.1 == LM)).map (fun q => q.2)

/-! ## Couplings -/

/-- `compute_lem(le, l, m)`, extract_mace_data.py:331-335; `mu = l + m`. -/
def lemOf (phil : List ℕ) (le mu : ℕ) : ℕ := ((phil.take le).map (fun l => 2 * l + 1)).sum + mu

/-- `compute_lme(le, l, m)`, extract_mace_data.py:336-342; `mu = l + m`. -/
def lmeOf (phil : List ℕ) (le l mu : ℕ) : ℕ :=
  let e := le - phil.countP (fun x => decide (x < l))
  let numE := fun ll => phil.countP (fun x => x == ll)
  ((List.range l).map (fun ll => (2 * ll + 1) * numE ll)).sum + mu * numE l + e

/-- `compute_lelm1lm2(le, l1, m1, l2, m2)`, extract_mace_data.py:343-349 (the arguments `l1`, `l2` are overwritten);
`mu = l + m` for the path's own `l1`, `l2`, so `m1 = mu1 - l1'` for the caller's `l1'`.  The script calls it only for
nonzero couplings, where `l1`, `l2` are those of the path. -/
def lelmOf (phil1 phil2 : List ℕ) (le : ℕ) (m1 m2 : ℤ) : ℤ :=
  ((List.range le).map (fun j => (2 * (phil1.getD j 0 : ℤ) + 1) * (2 * (phil2.getD j 0 : ℤ) + 1))).sum
    + ((phil1.getD le 0 : ℤ) + m1) * (2 * (phil2.getD le 0 : ℤ) + 1) + (phil2.getD le 0 : ℤ) + m2

/-- Unit vector. -/
noncomputable def unit (p : ℕ) : ℕ → ℝ := fun q => if q = p then 1 else 0

/-- `Phi_0`, extract_mace_data.py:363-367: the outputs for channel 0. -/
noncomputable def phi0List (C : ℕ) (phil : List ℕ) (Phi : ℕ → ℝ) : List ℝ :=
  (List.range phil.length).flatMap (fun le =>
    let start := ((phil.take le).map (fun l => 2 * l + 1)).sum * C
    (List.range (2 * phil.getD le 0 + 1)).map (fun p => Phi (start + p)))

/-- The entries `(lme, coefficient, lelm1lm2)`, extract_mace_data.py:350-375. -/
noncomputable def couplingTable (M : Torch) : List (ℕ × ℝ × ℤ) :=
  (List.range (M.lmax + 1)).flatMap (fun l1 => (List.range (2 * l1 + 1)).flatMap (fun mu1 =>
    (List.range (M.Lmax + 1)).flatMap (fun l2 => (List.range (2 * l2 + 1)).flatMap (fun mu2 =>
      let Y := unit (l1 * l1 + mu1)
      let H := unit (((List.range l2).map (fun p => 2 * p + 1)).sum * M.C + mu2)
      let Phi0 := phi0List M.C M.phil (M.tp H Y (fun _ => 1))
      (List.range M.phil.length).flatMap (fun le =>
        let l := M.phil.getD le 0
        (List.range (2 * l + 1)).flatMap (fun mu =>
          let x := Phi0.getD (lemOf M.phil le mu) 0
          if 1e-12 < |x| then [(lmeOf M.phil le l mu, x, lelmOf M.phil1 M.phil2 le ((mu1 : ℤ) - l1) ((mu2 : ℤ) - l2))] else []))))))

/-! ## The file -/

/-- `(A @ B)` for matrices with inner dimension `n`. -/
noncomputable def matMul (n : ℕ) (A B : ℕ → ℕ → ℝ) (i k : ℕ) : ℝ := ∑ j ∈ Finset.range n, A i j * B j k

/-- `A.flatten().tolist()` of an `n × m` matrix. -/
noncomputable def flatten (n m : ℕ) (A : ℕ → ℕ → ℝ) : List ℝ := (List.range n).flatMap (fun i => (List.range m).map (fun k => A i k))

/-- Polynomials of the first product, extract_mace_data.py:285-302 (`C[i][LM][k]`, `M[LM]`); `us` are the sparse tensors for each `l`. -/
noncomputable def poly0 (M : Torch) (an : List ℕ) (us : List (ℕ → ℕ → ℕ → Dict)) (i LM k : ℕ) : Dict :=
  match lmLookup M.Lmax LM with
  | some (l, mu) => polyDict (M.nEta0 l) (fun corr => (us.getD l (fun _ _ _ => [])) corr mu)
      (fun corr eta => M.W0 l corr (index M.zs (an.getD i 0)) eta k)
  | none => []

/-- Polynomials of the second product, extract_mace_data.py:455-472. -/
noncomputable def poly1 (M : Torch) (an : List ℕ) (u1 : ℕ → ℕ → ℕ → Dict) (i k : ℕ) : Dict :=
  polyDict M.nEta1 (fun corr => u1 corr 0) (fun corr eta => M.W1 corr (index M.zs (an.getD i 0)) eta k)

/-- The dictionary `output` that is written, from the model, the sorted elements, the sparse tensors and the inverse matrix. -/
noncomputable def fileOf (n : ℕ) (der : List ℝ → List ℝ) (M : Torch) (an : List ℕ) (us : List (ℕ → ℕ → ℕ → Dict))
    (u1 : ℕ → ℕ → ℕ → Dict) (inv1 : ℕ → ℕ → ℝ) : File :=
  let C := M.C
  let nz := (M.zs.length : ℝ)
  let rC := Real.sqrt C
  let z := index M.zs
  let P0 := poly0 M an us
  let P1 := poly1 M an u1
  let cp := couplingTable M
  { numChannels := C
    lmax := M.lmax
    Lmax := M.Lmax
    atomicNumbers := an
    -- lines 119-122
    atomicEnergies := an.map (fun a => M.e0 (z a) + M.shift)
    -- lines 128-140
    zbl := M.zbl.map (fun p => { p with c := p.c.map (fun x => M.scale * x) })
    -- lines 144-176
    splH := gridStep M.rcut n
    vals0 := (elementPairs an).map (fun p => radialTable M.rcut n ((M.lmax + 1) * C) (M.R0 (z p.1) (z p.2)))
    ders0 := (elementPairs an).map (fun p => (radialTable M.rcut n ((M.lmax + 1) * C) (M.R0 (z p.1) (z p.2))).map der)
    vals1 := (elementPairs an).map (fun p => radialTable M.rcut n (M.phil.length * C) (M.R1 (z p.1) (z p.2)))
    ders1 := (elementPairs an).map (fun p => (radialTable M.rcut n (M.phil.length * C) (M.R1 (z p.1) (z p.2))).map der)
    -- lines 183-192
    H0w := flatten an.length C (fun i k => matMul C (fun a j => M.emb (a * C + j) / Real.sqrt nz) (fun j k => M.up0 (j * C + k))
      (z (an.getD i 0)) k / rC)
    -- lines 227-237
    A0w := an.map (fun a => (List.range (M.lmax + 1)).map (fun l => flatten C C (fun k' k =>
      matMul C (fun k' k => if M.dens0.isSome then M.lin0 l k' k / rC else M.lin0 l k' k / rC / M.avg0)
        (fun k' k => M.skip0 l k' (z a) k) k' k / Real.sqrt (nz * C))))
    -- lines 201-226
    A0scaled := M.dens0.isSome
    A0h := gridStep M.rcut n
    A0vals := match M.dens0 with
      | some d => (elementPairs an).map (fun p => tableOf M.rcut n (fun r => Real.tanh (d (z p.1) (z p.2) r ^ 2)))
      | none => []
    A0ders := match M.dens0 with
      | some d => (elementPairs an).map (fun p => der (tableOf M.rcut n (fun r => Real.tanh (d (z p.1) (z p.2) r ^ 2))))
      | none => []
    M0w := fun i LM k => (P0 i LM k).map Prod.snd
    M0mon := fun LM => (P0 (an.length - 1) LM (C - 1)).map Prod.fst
    -- lines 309-318
    H1w := (List.range (M.Lmax + 1)).flatMap (fun l => flatten C C (matMul C (fun k' k => M.plin0 ((l * C + k') * C + k) / rC)
      (fun k' k => M.up1 ((l * C + k') * C + k) / rC)))
    phil := M.phil
    phil1 := M.phil1
    phil2 := M.phil2
    philme := cp.map (fun q => q.1)
    cg := cp.map (fun q => q.2.1)
    philelm := cp.map (fun q => q.2.2.toNat)
    -- lines 412-421
    A1w := (List.range (M.lmax + 1)).map (fun l => flatten (M.phil.count l * C) C (fun ek k =>
      if M.dens1.isSome then M.lin1 l ek k / Real.sqrt ((M.phil.count l : ℝ) * C)
      else M.lin1 l ek k / Real.sqrt ((M.phil.count l : ℝ) * C) / M.avg1))
    A1scaled := M.dens1.isSome
    A1h := gridStep M.rcut n
    A1vals := match M.dens1 with
      | some d => (elementPairs an).map (fun p => tableOf M.rcut n (fun r => Real.tanh (d (z p.1) (z p.2) r ^ 2)))
      | none => []
    A1ders := match M.dens1 with
      | some d => (elementPairs an).map (fun p => der (tableOf M.rcut n (fun r => Real.tanh (d (z p.1) (z p.2) r ^ 2))))
      | none => []
    M1w := fun i k => (P1 i k).map Prod.snd
    M1mon := (P1 (an.length - 1) (C - 1)).map Prod.fst
    -- lines 484-494
    H2wH1 := an.map (fun a => flatten C C (matMul C inv1 (fun k' k => M.skip1 k' (z a) k / Real.sqrt (nz * C))))
    H2wM1 := (List.range (C * C)).map (fun p => M.plin1 p / rC)
    -- lines 498-517
    ro1 := (List.range C).map (fun k => (∑ j ∈ Finset.range C, inv1 k j * (M.read1 j / rC)) * M.scale)
    ro2w1 := flatten 16 C (fun j k => M.read2a (k * 16 + j) / rC)
    ro2w2 := (List.range 16).map (fun j => M.read2b j / Real.sqrt 16 * M.scale)
    ro2scale := M.cst }

/-- `extract_mace_data`, extract_mace_data.py:18-519.  `n` is `num_spline_points`. -/
noncomputable def extract (n : ℕ) (der : List ℝ → List ℝ) (inv : ℕ → (ℕ → ℕ → ℝ) → Option (ℕ → ℕ → ℝ)) (species : List ℕ) (M : Torch) :
    Option File := do
  -- lines 89-90
  if M.lmax ≠ 3 then none
  -- lines 115-118, and `index` for every element
  let an := if species = [] then M.zs.insertionSort (· ≤ ·) else species.insertionSort (· ≤ ·)
  if ¬ an.all (fun a => M.zs.contains a) then none
  -- lines 273-302
  let us ← (List.range (M.Lmax + 1)).mapM (fun l => sparseAll (2 * l + 1) ((M.lmax + 1) * (M.lmax + 1)) (M.nEta0 l) (M.U0 l))
  -- lines 426-472
  let u1 ← sparseAll 1 ((M.lmax + 1) * (M.lmax + 1)) M.nEta1 (fun corr _ t eta => M.U1 corr t eta)
  -- lines 479-483, 499-503
  let inv1 ← inv M.C (fun k' k => M.up1 (k' * M.C + k) / Real.sqrt M.C)
  some (fileOf n der M an us u1 inv1)

end Verif.Extract
