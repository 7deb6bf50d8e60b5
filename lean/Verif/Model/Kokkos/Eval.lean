import Verif.Base.Kernel
import Verif.Base.Trunc
import Verif.Model.MACE

/-!
# Model of the evaluation in `mace_kokkos.cpp`, `radial_function_set_kokkos.cpp`, `multilayer_perceptron_kokkos.cpp`,
`zbl_kokkos.cpp`

Each `parallel_for` launch is a `Prog` over the views it modifies (parameter `E`: their extents); views it only reads are looked up
with checked accesses.  Launches are followed by a fence, or by launches on the same execution space, so they run one after
another.  Nested ranges:

* `parallel_for` over a team range is `par`: its iterations are separate threads that join at the end.  Where the source has no
  barrier after it, the following range has the same bounds, so a lane continues with its own iteration.
* `parallel_reduce` is `par` whose threads return their contributions, which are then summed.
* `single(PerTeam)` is executed once.
* `TeamGemm` with `alpha = 1`, `beta = 0` computes every entry of the product once.
* team scratch memory is a separate uninitialised block for every team.

`Precision` and `double` are the field `K`.  The host path of `compute_Y` is modelled (`SYMMETRIX_SPHERICART_CUDA` undefined).
One-dimensional views that are never written are lists.  Code under `#if 0` is not modelled.
-/

namespace Verif.Kokkos
open Verif.Par Verif.Par.Prog

/-- What Kokkos leaves open: the order in which threads run, the division of a scan into blocks, the content of memory that is not
initialised. -/
structure Env (K : Type) [AddCommMonoid K] where
  L : Launcher K
  LN : Launcher ℕ
  chunks : ℕ → List ℕ
  chunks_sum : ∀ n, (chunks n).sum = n
  junk : ℕ → ℕ → K

/-- Everything in index order, scans in one block, memory initially zero. -/
def Env.simple (K : Type) [AddCommMonoid K] : Env K where
  L := Launcher.inOrder K
  LN := Launcher.inOrder ℕ
  chunks := fun n => [n]
  chunks_sum := fun n => by simp
  junk := fun _ _ => 0

/-- Checked lookup of two things. -/
def both {α β : Type} (a : Option α) (b : Option β) : Option (α × β) := a.bind (fun x => b.map (fun y => (x, y)))

section alloc
variable {K : Type} [Zero K]

/-- Allocation without initialisation. -/
def uninit (junk : ℕ → K) (ext : List ℕ) : View K := ⟨ext, tab ext.prod junk⟩

/-- `if (v.extent(0) < n) realloc(v, n, ns...)`. -/
def grow (v : View K) (n : ℕ) (ns : List ℕ) : View K := if v.extent 0 < n then View.new (n :: ns) 0 else v

/-- The same without initialisation. -/
def growJ (junk : ℕ → K) (v : View K) (n : ℕ) (ns : List ℕ) : View K := if v.extent 0 < n then uninit junk (n :: ns) else v

/-- `if (v.extent(0) < w.extent(0)) realloc(v, w.extent(0), w.extent(1), ...)`. -/
def growLike (v w : View K) : View K := if v.extent 0 < w.extent 0 then View.new w.ext 0 else v

/-- Indices of storage position `p` for the extents `ext`. -/
def unflat : List ℕ → ℕ → List ℕ
  | [], _ => []
  | _ :: ns, p => p / ns.prod :: unflat ns (p % ns.prod)

/-- `Kokkos::resize`: the entries common to both shapes are kept. -/
def resizeView (v : View K) (ext : List ℕ) : View K := ⟨ext, tab ext.prod (fun p => (v.get (unflat ext p)).getD 0)⟩

/-- `if (v.extent(0) < w.extent(0)) resize(v, w.extent(0), w.extent(1), ...)`. -/
def resizeLike (v w : View K) : View K := if v.extent 0 < w.extent 0 then resizeView v w.ext else v

/-- `deep_copy(dst, src)`: throws unless the extents are equal. -/
def deepCopy (dst src : View K) : Option (View K) := if dst.ext = src.ext then some ⟨dst.ext, src.data⟩ else none

end alloc

/-! ## Edge numbering -/

/-- The functor of the scans run over one block: indices `start ..`, running sum from `base`.  The written values and the final sum. -/
def scanBlock (nn : List ℕ) (start len base : ℕ) : Option (List ℕ × ℕ) :=
  loop len (fun j (q : List ℕ × ℕ) => (nn[start + j]?).map (fun n => (q.1 ++ [q.2], q.2 + n))) ([], base)

/-- `parallel_scan`: a first pass (`final == false`) sums every block, a second pass starts each block with the sum of the blocks
before it and stores the running sums. -/
def scanBlocks (nn : List ℕ) : List ℕ → ℕ → ℕ → Option (List ℕ)
  | [], _, _ => some []
  | len :: rest, start, base => do
    let tot ← scanBlock nn start len 0
    let out ← scanBlock nn start len base
    let later ← scanBlocks nn rest (start + len) (base + tot.2)
    some (out.1 ++ later)

section env
variable {K : Type} [Field K]

/-- `first_neigh`, mace_kokkos.cpp:115-124 (the same code at 316-324, 371-380, 438-445, 488-495, 819-826, 977-986, 1127-1134,
1178-1185, radial_function_set_kokkos.cpp:139-148, zbl_kokkos.cpp:116-125). -/
def firstNeigh (V : Env K) (nn : List ℕ) (N : ℕ) : Option (List ℕ) := scanBlocks nn (V.chunks N) 0 0

/-- `i_list`, mace_kokkos.cpp:126-135. -/
def iListK (fn nn : List ℕ) (N : ℕ) (E : Unit → List ℕ) : Prog Unit ℕ :=
  parFor N (fun i => opt (both fn[i]? nn[i]?) (fun q => forP q.2 (fun j => put E () [q.1 + j] i)))

/-- `first_neigh` and `i_list`; the latter has `r.size()` entries, initially zero. -/
def iList (V : Env K) (nn : List ℕ) (N Ex : ℕ) : Option (View ℕ) := do
  let fn ← firstNeigh V nn N
  V.LN.launch1 (iListK fn nn N (fun _ => [Ex])) (View.new [Ex] 0)

/-! ## Radial functions -/

/-- `RadialFunctionSetKokkos`, radial_function_set_kokkos.hpp; `c` has extents (edge types, intervals, 4, functions). -/
structure RadialSet (K : Type) where
  h : K
  numTypes : ℕ
  numFun : ℕ
  c : View K

/-- Edge type, interval number and offset in the interval, mace_kokkos.cpp:149-154, radial_function_set_kokkos.cpp:173-184.
A negative interval number is an out-of-range index. -/
def locate [LinearOrder K] [FloorRing K] (h : K) (pair : ℕ → ℕ → ℕ) (types ntypes : List ℕ) (il : View ℕ) (r : List K) (ij : ℕ) :
    Option (ℕ × ℕ × K) := do
  let i ← il.get [ij]
  let ti ← types[i]?
  let tj ← ntypes[ij]?
  let rij ← r[ij]?
  let n := truncInt (rij / h)
  if n < 0 then none else some (pair ti tj, n.toNat, rij - h * n)

/-- The four coefficients of a function in an interval. -/
def coeffs (c : View K) (ty n k : ℕ) : Option (K × K × K × K) := do
  let c0 ← c.get [ty, n, 0, k]
  let c1 ← c.get [ty, n, 1, k]
  let c2 ← c.get [ty, n, 2, k]
  let c3 ← c.get [ty, n, 3, k]
  some (c0, c1, c2, c3)

/-- The evaluation kernel, mace_kokkos.cpp:145-171 and radial_function_set_kokkos.cpp:164-202; `false` is the value view, `true`
the derivative view. -/
def radialK [LinearOrder K] [FloorRing K] (h : K) (c : View K) (S : ℕ) (pair : ℕ → ℕ → ℕ) (types ntypes : List ℕ) (il : View ℕ)
    (r : List K) (E : Bool → List ℕ) : Prog Bool K :=
  parFor r.length (fun ij => opt (locate h pair types ntypes il r ij) (fun q =>
    parFor S (fun k => opt (coeffs c q.1 q.2.1 k) (fun cs =>
      let x := q.2.2
      seq (put E false [ij, k] (cs.1 + cs.2.1 * x + cs.2.2.1 * (x * x) + cs.2.2.2 * (x * x * x)))
        (put E true [ij, k] (cs.2.1 + cs.2.2.1 * (2 * x) + cs.2.2.2 * (3 * (x * x))))))))

/-- `compute_R0`, mace_kokkos.cpp:100-173. -/
def computeR0 [LinearOrder K] [FloorRing K] (V : Env K) (C lmax nT : ℕ) (h : K) (c : View K) (g : MACE.Graph K) (R Rd : View K) :
    Option (View K × View K) := do
  let small := R.extent 0 < g.r.length
  let R := if small then View.new [g.r.length, (lmax + 1) * C] 0 else R
  let Rd := if small then View.new [g.r.length, (lmax + 1) * C] 0 else Rd
  let il ← iList V g.nn g.N g.r.length
  V.L.launch2 (radialK h c ((lmax + 1) * C) (fun a b => a * nT + b) g.types g.ntypes il g.r (fun b => if b then Rd.ext else R.ext)) R Rd

/-- `num_unique_types`, radial_function_set_kokkos.cpp:162; truncation of a real number is the integer square root here. -/
def uniqueTypes (numTypes : ℕ) : ℕ := (Nat.sqrt (8 * numTypes + 1) - 1) / 2

/-- `RadialFunctionSetKokkos::evaluate`, radial_function_set_kokkos.cpp:124-203. -/
def RadialSet.evaluate [LinearOrder K] [FloorRing K] (V : Env K) (s : RadialSet K) (g : MACE.Graph K) (R Rd : View K) :
    Option (View K × View K) := do
  let il ← iList V g.nn g.N g.r.length
  V.L.launch2 (radialK s.h s.c s.numFun (MACE.pairIndex (uniqueTypes s.numTypes)) g.types g.ntypes il g.r
    (fun b => if b then Rd.ext else R.ext)) R Rd

/-- Growing the views and evaluating: `compute_R1`, mace_kokkos.cpp:175-190 (`S = Phi1_l.size()*num_channels`), and the splines of
`compute_A0_scaled`, `compute_A1_scaled`, 430-435, 1119-1124 (`S = 1`). -/
def computeRadial [LinearOrder K] [FloorRing K] (V : Env K) (S : ℕ) (s : RadialSet K) (g : MACE.Graph K) (R Rd : View K) :
    Option (View K × View K) := do
  let small := R.extent 0 < g.r.length
  let R := if small then View.new [g.r.length, S] 0 else R
  let Rd := if small then View.new [g.r.length, S] 0 else Rd
  s.evaluate V g R Rd

/-! ## Harmonics -/

/-- mace_kokkos.cpp:211-215. -/
def shuffleK (xyz : List K) (num : ℕ) (E : Unit → List ℕ) : Prog Unit K :=
  parFor num (fun i =>
    seq (opt (xyz[3 * i + 2]?) (fun a => put E () [3 * i] a))
      (seq (opt (xyz[3 * i]?) (fun a => put E () [3 * i + 1] a)) (opt (xyz[3 * i + 1]?) (fun a => put E () [3 * i + 2] a))))

/-- mace_kokkos.cpp:233-239; `old` is `Y_grad_shuffled`. -/
def unshuffleK (M num : ℕ) (old : View K) (E : Unit → List ℕ) : Prog Unit K :=
  parFor num (fun i => forP M (fun lm =>
    seq (opt (old.get [3 * i * M + 1 * M + lm]) (fun a => put E () [3 * i * M + 0 * M + lm] a))
      (seq (opt (old.get [3 * i * M + 2 * M + lm]) (fun a => put E () [3 * i * M + 1 * M + lm] a))
        (opt (old.get [3 * i * M + 0 * M + lm]) (fun a => put E () [3 * i * M + 2 * M + lm] a)))))

/-- mace_kokkos.cpp:243-248. -/
def scaleK (n : ℕ) (nrm : K) (E : Unit → List ℕ) : Prog Unit K := parFor n (fun i => upd E () [i] (fun y => y * nrm))

/-- `compute_Y`, mace_kokkos.cpp:192-250.  The host mirrors are separate memory with arbitrary content; sphericart writes their
first entries and they are copied back as a whole.  Result: `Y`, `Y_grad`, `xyz_shuffled`, `Y_grad_shuffled`. -/
def computeY (V : Env K) (M : ℕ) (sph : K → K → K → ℕ → K) (dsph : K → K → K → ℕ → ℕ → K) (nrm : K) (xyz : List K)
    (Y Yg xs Ygs : View K) : Option (View K × View K × View K × View K) := do
  let num := xyz.length / 3
  let small := Y.extent 0 < num * M
  let Y := if small then View.new [num * M] 0 else Y
  let Yg := if small then View.new [3 * num * M] 0 else Yg
  let xs := grow xs (3 * num) []
  let xs ← V.L.launch1 (shuffleK xyz num (fun _ => xs.ext)) xs
  let hY ← MACE.sphValues M sph num xs.data (tab Y.ext.prod (V.junk 0))
  let hYg ← MACE.sphGrads M dsph num xs.data (tab Yg.ext.prod (V.junk 1))
  let Y : View K := ⟨Y.ext, hY⟩
  let Yg : View K := ⟨Yg.ext, hYg⟩
  let Ygs := grow Ygs (3 * num * M) []
  let Ygs ← deepCopy Ygs Yg
  let Yg ← V.L.launch1 (unshuffleK M num Ygs (fun _ => Yg.ext)) Yg
  let Y ← V.L.launch1 (scaleK (num * M) nrm (fun _ => Y.ext)) Y
  let Yg ← V.L.launch1 (scaleK (3 * num * M) nrm (fun _ => Yg.ext)) Yg
  some (Y, Yg, xs, Ygs)

/-! ## First layer -/

/-- mace_kokkos.cpp:332-348; `Kokkos::sqrt(lm)` truncated to `int` is the integer square root. -/
def A0K (C M : ℕ) (fn : List ℕ) (g : MACE.Graph K) (R0 Y : View K) (E : Unit → List ℕ) : Prog Unit K :=
  parFor2 g.N M (fun i lm => opt (both fn[i]? g.nn[i]?) (fun q =>
    forP q.2 (fun j => opt (Y.get [(q.1 + j) * M + lm]) (fun y =>
      parFor C (fun k => opt (R0.get [q.1 + j, Nat.sqrt lm * C + k]) (fun R => plus E () [i, lm, k] (R * y)))))))

/-- `compute_A0`, mace_kokkos.cpp:305-351. -/
def computeA0 (V : Env K) (C M : ℕ) (g : MACE.Graph K) (R0 Y A0 : View K) : Option (View K) := do
  let A0 := if A0.extent 0 ≠ g.N then View.new [g.N, M, C] 0 else A0
  let A0 := A0.fill 0
  let fn ← firstNeigh V g.nn g.N
  V.L.launch1 (A0K C M fn g R0 Y (fun _ => A0.ext)) A0

/-- Sum of the spline values of a node plus one, mace_kokkos.cpp:459-465, 512-518, 1149-1155, 1203-1209. -/
def factorK {ι : Type} (sv : View K) (i0 n : ℕ) (k : K → Prog ι K) : Prog ι K :=
  .par n (fun j => opt (sv.get [i0 + j, 0]) (fun x => .ret [x])) (fun vs => k (red 0 vs + 1))

/-- mace_kokkos.cpp:453-473, 1142-1163. -/
def scaledK (C M : ℕ) (fn : List ℕ) (g : MACE.Graph K) (sv : View K) (E : Unit → List ℕ) : Prog Unit K :=
  parFor g.N (fun i => opt (both fn[i]? g.nn[i]?) (fun q => factorK sv q.1 q.2 (fun s =>
    parFor2 M C (fun lm k => upd E () [i, lm, k] (fun x => x / s)))))

/-- `compute_A0_scaled`, mace_kokkos.cpp:421-475, and `compute_A1_scaled`, 1109-1165, when scaling is on. -/
def computeScaled [LinearOrder K] [FloorRing K] (V : Env K) (C M : ℕ) (spl : RadialSet K) (g : MACE.Graph K) (sv sd A : View K) :
    Option (View K × View K × View K) := do
  let q ← computeRadial V 1 spl g sv sd
  let fn ← firstNeigh V g.nn g.N
  let A ← V.L.launch1 (scaledK C M fn g q.1 (fun _ => A.ext)) A
  some (q.1, q.2, A)

/-- Three statements for the components `3*ij`, `3*ij+1`, `3*ij+2` of the forces. -/
def three {ι : Type} (E : ι → List ℕ) (b : ι) (ij : ℕ) (h : ℕ → K → K) : Prog ι K :=
  seq (upd E b [3 * ij] (h 0)) (seq (upd E b [3 * ij + 1] (h 1)) (upd E b [3 * ij + 2] (h 2)))

/-- The components of an edge vector and its length. -/
def edgeVec (g : MACE.Graph K) (ij : ℕ) : Option ((ℕ → K) × K) := do
  let x ← g.xyz[3 * ij]?
  let y ← g.xyz[3 * ij + 1]?
  let z ← g.xyz[3 * ij + 2]?
  let r ← g.r[ij]?
  some (fun a => if a = 0 then x else if a = 1 then y else z, r)

/-- mace_kokkos.cpp:506-546, 1196-1237; `false` is `node_forces`, `true` the adjoint of `A0` or `A1`. -/
def reverseScaledK (C M : ℕ) (fn : List ℕ) (g : MACE.Graph K) (sv sd A : View K) (E : Bool → List ℕ) : Prog Bool K :=
  parFor g.N (fun i => opt (both fn[i]? g.nn[i]?) (fun q => factorK sv q.1 q.2 (fun s =>
    .par (M * C) (fun lmk => Prog.get E true [i, lmk / C, lmk % C] (fun a =>
        opt (A.get [i, lmk / C, lmk % C]) (fun x => .ret [a * x])))
      (fun vs => seq
        (parFor q.2 (fun j => opt (both (sv.get [q.1 + j, 0]) (sd.get [q.1 + j, 0])) (fun fd =>
          opt (edgeVec g (q.1 + j)) (fun xr => three E false (q.1 + j) (fun a w => w + red 0 vs / s * fd.2 * xr.1 a / xr.2)))))
        (parFor2 M C (fun lm k => upd E true [i, lm, k] (fun x => x / s)))))))

/-- `reverse_A0_scaled`, mace_kokkos.cpp:477-548, and `reverse_A1_scaled`, 1167-1239, when scaling is on. -/
def reverseScaled (V : Env K) (C M : ℕ) (g : MACE.Graph K) (sv sd A forces Aa : View K) : Option (View K × View K) := do
  let fn ← firstNeigh V g.nn g.N
  V.L.launch2 (reverseScaledK C M fn g sv sd A (fun b => if b then Aa.ext else forces.ext)) forces Aa

/-- mace_kokkos.cpp:382-417. -/
def reverseA0K (C M : ℕ) (fn : List ℕ) (g : MACE.Graph K) (R0 R0d Y Yg A0a : View K) (E : Unit → List ℕ) : Prog Unit K :=
  parFor g.N (fun i => opt (both fn[i]? g.nn[i]?) (fun q => forP q.2 (fun j =>
    let ij := q.1 + j
    opt (edgeVec g ij) (fun xr =>
      .par M (fun lm =>
          .par C (fun k => opt (do
              let Rd ← R0d.get [ij, Nat.sqrt lm * C + k]
              let a ← A0a.get [i, lm, k]
              let R ← R0.get [ij, Nat.sqrt lm * C + k]
              some [Rd * a, R * a]) .ret)
            (fun vs => opt (do
              let y ← Y.get [ij * M + lm]
              let g0 ← Yg.get [3 * ij * M + lm]
              let g1 ← Yg.get [3 * ij * M + M + lm]
              let g2 ← Yg.get [3 * ij * M + 2 * M + lm]
              some [red 0 vs * (xr.1 0 / xr.2) * y + red 1 vs * g0, red 0 vs * (xr.1 1 / xr.2) * y + red 1 vs * g1,
                red 0 vs * (xr.1 2 / xr.2) * y + red 1 vs * g2]) .ret))
        (fun vs => three E () ij (fun a w => w - red a vs))))))

/-- `reverse_A0`, mace_kokkos.cpp:353-419. -/
def reverseA0 (V : Env K) (C M : ℕ) (g : MACE.Graph K) (R0 R0d Y Yg A0a forces : View K) : Option (View K) := do
  let fn ← firstNeigh V g.nn g.N
  V.L.launch1 (reverseA0K C M fn g R0 R0d Y Yg A0a (fun _ => forces.ext)) forces

/-! ## Product basis -/

/-- Polynomial values and their weighted sum, mace_kokkos.cpp:616-635, 1297-1317.  `bv`/`val p k`: view and indices of node `p`,
channel `k`; `bo`/`out k`: of the result. -/
def polyFwd {ι : Type} (E : ι → List ℕ) (bo bv : ι) (out : ℕ → List ℕ) (val : ℕ → ℕ → List ℕ) (M C : ℕ) (spec : View ℕ)
    (coef inp : ℕ → ℕ → Option K) : Prog ι K :=
  seq
    (parFor2 M C (fun lm k => opt (inp lm k) (fun a => seq (put E bv (val lm k) a)
      (opt (coef lm k) (fun c => Prog.get E bv (val lm k) (fun x => atomic E bo (out k) (c * x)))))))
    (forP (spec.extent 0) (fun p => opt (both (spec.get [p, 0]) (spec.get [p, 1])) (fun e =>
      parFor C (fun k => Prog.get E bv (val e.1 k) (fun x => Prog.get E bv (val e.2 k) (fun y =>
        seq (put E bv (val (M + p) k) (x * y))
          (opt (coef (M + p) k) (fun c => Prog.get E bv (val (M + p) k) (fun z => plus E bo (out k) (c * z))))))))))

/-- Adjoints of the polynomial nodes, mace_kokkos.cpp:713-733, 1387-1406; `values` are the node values of the forward pass. -/
def polyBwd {ι : Type} (E : ι → List ℕ) (bv : ι) (val : ℕ → ℕ → List ℕ) (P M C : ℕ) (spec : View ℕ)
    (coef values : ℕ → ℕ → Option K) : Prog ι K :=
  seq (parFor2 P C (fun p k => opt (coef p k) (fun c => put E bv (val p k) c)))
    (forP (spec.extent 0) (fun p' =>
      let p := spec.extent 0 - 1 - p'
      opt (both (spec.get [p, 0]) (spec.get [p, 1])) (fun e =>
        parFor C (fun k => seq
          (Prog.get E bv (val (M + p) k) (fun a => opt (values e.2 k) (fun v => plus E bv (val e.1 k) (a * v))))
          (Prog.get E bv (val (M + p) k) (fun a => opt (values e.1 k) (fun v => plus E bv (val e.2 k) (a * v))))))))

/-- mace_kokkos.cpp:611-636; `none` is `M0`, `some LM` is `M0_poly_values(LM)`. -/
def M0K (C M LM : ℕ) (N : ℕ) (types : List ℕ) (spec : ℕ → View ℕ) (coeff : ℕ → View K) (A0 : View K) (E : Option ℕ → List ℕ) :
    Prog (Option ℕ) K :=
  parFor2 N LM (fun i lm => polyFwd E none (some lm) (fun k => [i, lm, k]) (fun p k => [i, p, k]) M C (spec lm)
    (fun p k => (types[i]?).bind (fun t => (coeff lm).get [t, p, k])) (fun p k => A0.get [i, p, k]))

/-- `compute_M0`, mace_kokkos.cpp:587-638: `M0` and the polynomial values. -/
def computeM0 (V : Env K) (C M LM : ℕ) (N : ℕ) (types : List ℕ) (spec : ℕ → View ℕ) (coeff : ℕ → View K) (A0 M0 : View K)
    (vals : ℕ → View K) : Option (View K × (ℕ → View K)) := do
  let M0 := (grow M0 N [LM, C]).fill 0
  let vals := fun lm => growJ (V.junk (10 + lm)) (vals lm) N [(coeff lm).extent 1, C]
  let q ← V.L.launch (M0K C M LM N types spec coeff A0 (fun b => match b with | none => M0.ext | some lm => (vals lm).ext))
    (fun b => match b with | none => M0 | some lm => vals lm)
  some (q.2 none, fun lm => q.2 (some lm))

/-- mace_kokkos.cpp:708-742; `none` is `A0_adj`, `some LM` is `M0_poly_adjoints(LM)`. -/
def reverseM0K (C M LM : ℕ) (N : ℕ) (types : List ℕ) (spec : ℕ → View ℕ) (coeff : ℕ → View K) (M0a : View K) (vals : ℕ → View K)
    (E : Option ℕ → List ℕ) : Prog (Option ℕ) K :=
  parFor2 N LM (fun i lm => seq
    (polyBwd E (some lm) (fun p k => [i, p, k]) ((coeff lm).extent 1) M C (spec lm)
      (fun p k => (types[i]?).bind (fun t => (coeff lm).get [t, p, k])) (fun p k => (vals lm).get [i, p, k]))
    (parFor2 M C (fun p k => Prog.get E (some lm) [i, p, k] (fun a => opt (M0a.get [i, lm, k]) (fun b =>
      atomic E none [i, p, k] (a * b))))))

/-- `reverse_M0`, mace_kokkos.cpp:684-744: `A0_adj` and the polynomial adjoints. -/
def reverseM0 (V : Env K) (C M LM : ℕ) (N : ℕ) (types : List ℕ) (spec : ℕ → View ℕ) (coeff : ℕ → View K) (A0 A0a M0a : View K)
    (vals adjs : ℕ → View K) : Option (View K × (ℕ → View K)) := do
  let A0a := (if A0a.extent 0 < N then View.new A0.ext 0 else A0a).fill 0
  let adjs := fun lm => growJ (V.junk (1000 + lm)) (adjs lm) N [(coeff lm).extent 1, C]
  let q ← V.L.launch (reverseM0K C M LM N types spec coeff M0a vals (fun b => match b with | none => A0a.ext | some lm => (adjs lm).ext))
    (fun b => match b with | none => A0a | some lm => adjs lm)
  some (q.2 none, fun lm => q.2 (some lm))

/-- mace_kokkos.cpp:1293-1318; `false` is `M1`, `true` is `M1_poly_values`. -/
def M1K (C M : ℕ) (N : ℕ) (types : List ℕ) (spec : View ℕ) (coeff A1 : View K) (E : Bool → List ℕ) : Prog Bool K :=
  parFor N (fun i => polyFwd E false true (fun k => [i, k]) (fun p k => [i, p, k]) M C spec
    (fun p k => (types[i]?).bind (fun t => coeff.get [t, p, k])) (fun p k => A1.get [i, p, k]))

/-- `compute_M1`, mace_kokkos.cpp:1274-1320. -/
def computeM1 (V : Env K) (C M : ℕ) (N : ℕ) (types : List ℕ) (spec : View ℕ) (coeff A1 M1 vals : View K) :
    Option (View K × View K) :=
  let M1 := (grow M1 N [C]).fill 0
  let vals := grow vals N [M + spec.extent 0, C]
  V.L.launch2 (M1K C M N types spec coeff A1 (fun b => if b then vals.ext else M1.ext)) M1 vals

/-- mace_kokkos.cpp:1383-1415; `false` is `A1_adj`, `true` is `M1_poly_adjoints`. -/
def reverseM1K (C M : ℕ) (N : ℕ) (types : List ℕ) (spec : View ℕ) (coeff M1a vals : View K) (E : Bool → List ℕ) : Prog Bool K :=
  parFor N (fun i => seq
    (polyBwd E true (fun p k => [i, p, k]) (coeff.extent 1) M C spec
      (fun p k => (types[i]?).bind (fun t => coeff.get [t, p, k])) (fun p k => vals.get [i, p, k]))
    (parFor2 M C (fun p k => Prog.get E true [i, p, k] (fun a => opt (M1a.get [i, k]) (fun b => put E false [i, p, k] (a * b))))))

/-- `reverse_M1`, mace_kokkos.cpp:1361-1417. -/
def reverseM1 (V : Env K) (C M : ℕ) (N : ℕ) (types : List ℕ) (spec : View ℕ) (coeff A1 A1a M1a vals adjs : View K) :
    Option (View K × View K) :=
  let A1a := (if A1a.extent 0 < N then View.new A1.ext 0 else A1a).fill 0
  let adjs := grow adjs N [coeff.extent 1, C]
  V.L.launch2 (reverseM1K C M N types spec coeff M1a vals (fun b => if b then adjs.ext else A1a.ext)) A1a adjs

/-! ## Linear maps -/

/-- `TeamGemm`: every entry of `a * b` is passed to `out`; `rows`, `cols`, `inner` are the dimensions. -/
def gemmK {ι : Type} (rows cols inner : ℕ) (a b : ℕ → ℕ → Option K) (out : ℕ → ℕ → K → Prog ι K) : Prog ι K :=
  parFor2 rows cols (fun x y => opt (sumO inner (fun z => do
    let u ← a x z
    let v ← b z y
    some (u * v))) (fun w => out x y w))

/-- mace_kokkos.cpp:759-772; rows `l*l .. l*(l+2)` of node `i`. -/
def H1K (C Lmax N : ℕ) (H1w M0 : View K) (E : Unit → List ℕ) : Prog Unit K :=
  parFor2 N (Lmax + 1) (fun i l => gemmK (2 * l + 1) C C (fun m k => M0.get [i, l * l + m, k]) (fun k q => H1w.get [l, k, q])
    (fun m q w => put E () [i, l * l + m, q] w))

/-- `compute_H1`, mace_kokkos.cpp:747-774. -/
def computeH1 (V : Env K) (C Lmax N : ℕ) (H1w M0 H1 : View K) : Option (View K) :=
  let H1 := growLike H1 M0
  V.L.launch1 (H1K C Lmax N H1w M0 (fun _ => H1.ext)) H1

/-- mace_kokkos.cpp:788-801. -/
def reverseH1K (C Lmax N : ℕ) (H1w H1a : View K) (E : Unit → List ℕ) : Prog Unit K :=
  parFor2 N (Lmax + 1) (fun i l => gemmK (2 * l + 1) C C (fun m k => H1a.get [i, l * l + m, k]) (fun k q => H1w.get [l, q, k])
    (fun m q w => put E () [i, l * l + m, q] w))

/-- `reverse_H1`, mace_kokkos.cpp:776-803. -/
def reverseH1 (V : Env K) (C Lmax N : ℕ) (H1w M0 H1a M0a : View K) : Option (View K) :=
  let M0a := growLike M0a M0
  V.L.launch1 (reverseH1K C Lmax N H1w H1a (fun _ => M0a.ext)) M0a

/-! ## Second layer -/

/-- The tables of the second layer. -/
structure Tables where
  lm1 : List ℕ
  lm2 : List ℕ
  lel : List ℕ
  lme : List ℕ
  lelm : List ℕ

/-- mace_kokkos.cpp:866-900; `false` is `Phi1r`, `true` the scratch memory, one row per team. -/
def phi1rK (C M nQ : ℕ) (fn : List ℕ) (g : MACE.Graph K) (t : Tables) (R1 Y H1 : View K) (E : Bool → List ℕ) : Prog Bool K :=
  parFor2 g.N nQ (fun i q => opt (both fn[i]? g.nn[i]?) (fun n => opt (both t.lm1[q]? (both t.lm2[q]? t.lel[q]?)) (fun e =>
    seq (parFor C (fun k => put E true [i * nQ + q, k] 0))
      (seq (forP n.2 (fun j => parFor C (fun k => opt (do
            let R ← R1.get [n.1 + j, e.2.2 * C + k]
            let y ← Y.get [(n.1 + j) * M + e.1]
            let nb ← g.idx[n.1 + j]?
            let h ← H1.get [nb, e.2.1, k]
            some (R * y * h)) (fun v => plus E true [i * nQ + q, k] v))))
        (parFor C (fun k => Prog.get E true [i * nQ + q, k] (fun v => put E false [i, q, k] v)))))))

/-- mace_kokkos.cpp:905-917. -/
def phi1K (C N : ℕ) (cg : List K) (t : Tables) (Phi1r : View K) (E : Unit → List ℕ) : Prog Unit K :=
  parFor N (fun i => forP cg.length (fun p => opt cg[p]? (fun c =>
    parFor C (fun k => opt (both t.lme[p]? ((t.lelm[p]?).bind (fun q => Phi1r.get [i, q, k]))) (fun e =>
      plus E () [i, e.1, k] (c * e.2))))))

/-- `compute_Phi1`, mace_kokkos.cpp:805-919: `Phi1r`, `Phi1`. -/
def computePhi1 (V : Env K) (C M nQ nO : ℕ) (cg : List K) (t : Tables) (g : MACE.Graph K) (R1 Y H1 Phi1r Phi1 : View K) :
    Option (View K × View K) := do
  let Phi1r := (grow Phi1r g.N [nQ, C]).fill 0
  let Phi1 := (grow Phi1 g.N [nO, C]).fill 0
  let fn ← firstNeigh V g.nn g.N
  let scratch := uninit (V.junk 2) [g.N * nQ, C]
  let q ← V.L.launch2 (phi1rK C M nQ fn g t R1 Y H1 (fun b => if b then scratch.ext else Phi1r.ext)) Phi1r scratch
  let Phi1 ← V.L.launch1 (phi1K C g.N cg t q.1 (fun _ => Phi1.ext)) Phi1
  some (q.1, Phi1)

/-- mace_kokkos.cpp:963-975. -/
def reversePhi1K (C N : ℕ) (cg : List K) (t : Tables) (dPhi1 : View K) (E : Unit → List ℕ) : Prog Unit K :=
  parFor N (fun i => forP cg.length (fun p => opt cg[p]? (fun c =>
    parFor C (fun k => opt (both t.lelm[p]? ((t.lme[p]?).bind (fun q => dPhi1.get [i, q, k]))) (fun e =>
      plus E () [i, e.1, k] (c * e.2))))))

/-- mace_kokkos.cpp:988-1023; `false` is `node_forces`, `true` is `H1_adj`. -/
def reversePhi1rK (C M nQ : ℕ) (fn : List ℕ) (g : MACE.Graph K) (t : Tables) (R1 R1d Y Yg H1 dPhi1r : View K) (E : Bool → List ℕ) :
    Prog Bool K :=
  parFor g.N (fun i => opt (both fn[i]? g.nn[i]?) (fun n => forP n.2 (fun j =>
    let ij := n.1 + j
    .par nQ (fun q => opt (both t.lm1[q]? (both t.lm2[q]? t.lel[q]?)) (fun e =>
        .par C (fun k => opt (do
            let Rd ← R1d.get [ij, e.2.2 * C + k]
            let nb ← g.idx[ij]?
            let h ← H1.get [nb, e.2.1, k]
            let d ← dPhi1r.get [i, q, k]
            let R ← R1.get [ij, e.2.2 * C + k]
            let y ← Y.get [ij * M + e.1]
            some (nb, R * y * d, [Rd * h * d, R * h * d])) (fun s =>
              seq (atomic E true [s.1, e.2.1, k] s.2.1) (.ret s.2.2)))
          (fun vs => opt (do
            let xr ← edgeVec g ij
            let y ← Y.get [ij * M + e.1]
            let g0 ← Yg.get [3 * ij * M + e.1]
            let g1 ← Yg.get [(3 * ij + 1) * M + e.1]
            let g2 ← Yg.get [(3 * ij + 2) * M + e.1]
            some [red 0 vs * xr.1 0 / xr.2 * y + red 1 vs * g0, red 0 vs * xr.1 1 / xr.2 * y + red 1 vs * g1,
              red 0 vs * xr.1 2 / xr.2 * y + red 1 vs * g2]) .ret)))
      (fun vs => three E false ij (fun a w => w - red a vs)))))

/-- `reverse_Phi1(…, zero_dxyz, zero_H1_adj)`, mace_kokkos.cpp:921-1025: `dPhi1r`, `node_forces`, `H1_adj`. -/
def reversePhi1 (V : Env K) (C M nQ : ℕ) (cg : List K) (t : Tables) (g : MACE.Graph K) (zeroF zeroH : Bool)
    (R1 R1d Y Yg H1 Phi1r dPhi1 dPhi1r forces H1a : View K) : Option (View K × View K × View K) := do
  let dPhi1r := growLike dPhi1r Phi1r
  let forces := if forces.ext.prod < g.xyz.length then resizeView forces [g.xyz.length] else forces
  let H1a := resizeLike H1a H1
  let forces := if zeroF then forces.fill 0 else forces
  let dPhi1r := dPhi1r.fill 0
  let H1a := if zeroH then H1a.fill 0 else H1a
  let dPhi1r ← V.L.launch1 (reversePhi1K C g.N cg t dPhi1 (fun _ => dPhi1r.ext)) dPhi1r
  let fn ← firstNeigh V g.nn g.N
  let q ← V.L.launch2 (reversePhi1rK C M nQ fn g t R1 R1d Y Yg H1 dPhi1r (fun b => if b then H1a.ext else forces.ext)) forces H1a
  some (dPhi1r, q.1, q.2)

/-- First row of block `l` and number of paths in it, mace_kokkos.cpp:1047-1055, 1088-1096. -/
def blockOf (phil : List ℕ) (l : ℕ) : Option (ℕ × ℕ) :=
  loop phil.length (fun p (q : ℕ × ℕ) => (phil[p]?).map (fun ll =>
    (if ll < l then q.1 + (2 * ll + 1) else q.1, if ll = l then q.2 + 1 else q.2))) (0, 0)

/-- Entry `(m, x)` of the unmanaged `(2l+1) × n` view that starts at `v(i, row, 0)`, mace_kokkos.cpp:1056-1057, 1098-1099: a position of
the storage of `v`. -/
def rawPos {K : Type} (v : View K) (i row n m x : ℕ) : ℕ := (i * v.extent 1 + row) * v.extent 2 + (m * n + x)

/-- mace_kokkos.cpp:1042-1064. -/
def A1K (C lmax N : ℕ) (phil : List ℕ) (A1w : ℕ → View K) (Phi1 : View K) (E : Unit → List ℕ) : Prog Unit K :=
  parFor2 N (lmax + 1) (fun i l => opt (blockOf phil l) (fun b =>
    gemmK (2 * l + 1) C (b.2 * C) (fun m x => Phi1.data[rawPos Phi1 i b.1 (b.2 * C) m x]?) (fun x k => (A1w l).get [x, k])
      (fun m k w => put E () [i, l * l + m, k] w)))

/-- `compute_A1`, mace_kokkos.cpp:1027-1066. -/
def computeA1 (V : Env K) (C M lmax N : ℕ) (phil : List ℕ) (A1w : ℕ → View K) (Phi1 A1 : View K) : Option (View K) :=
  let A1 := grow A1 N [M, C]
  V.L.launch1 (A1K C lmax N phil A1w Phi1 (fun _ => A1.ext)) A1

/-- mace_kokkos.cpp:1083-1105; the modified view is the storage of `dPhi1`. -/
def reverseA1K (C lmax N : ℕ) (phil : List ℕ) (A1wt : ℕ → View K) (A1a dPhi1 : View K) (E : Unit → List ℕ) : Prog Unit K :=
  parFor2 N (lmax + 1) (fun i l => opt (blockOf phil l) (fun b =>
    gemmK (2 * l + 1) (b.2 * C) C (fun m k => A1a.get [i, l * l + m, k]) (fun k x => (A1wt l).get [k, x])
      (fun m x w => put E () [rawPos dPhi1 i b.1 (b.2 * C) m x] w)))

/-- `reverse_A1`, mace_kokkos.cpp:1068-1107. -/
def reverseA1 (V : Env K) (C nO lmax N : ℕ) (phil : List ℕ) (A1wt : ℕ → View K) (A1a dPhi1 : View K) : Option (View K) :=
  let dPhi1 := grow dPhi1 N [nO, C]
  (V.L.launch1 (reverseA1K C lmax N phil A1wt A1a dPhi1 (fun _ => [dPhi1.data.length])) ⟨[dPhi1.data.length], dPhi1.data⟩).map
    (fun w => ⟨dPhi1.ext, w.data⟩)

/-- mace_kokkos.cpp:1433-1442. -/
def H2fromH1K (C N : ℕ) (types : List ℕ) (w H1 : View K) (E : Unit → List ℕ) : Prog Unit K :=
  parFor2 N C (fun i k => forP C (fun kp => opt (do
    let t ← types[i]?
    let a ← w.get [t, kp * C + k]
    let h ← H1.get [i, 0, kp]
    some (a * h)) (fun v => plus E () [i, k] v)))

/-- mace_kokkos.cpp:1444-1453. -/
def H2fromM1K (C N : ℕ) (w : List K) (M1 : View K) (E : Unit → List ℕ) : Prog Unit K :=
  parFor2 N C (fun i k => forP C (fun kp => opt (do
    let a ← w[kp * C + k]?
    let h ← M1.get [i, kp]
    some (a * h)) (fun v => plus E () [i, k] v)))

/-- `compute_H2`, mace_kokkos.cpp:1419-1455. -/
def computeH2 (V : Env K) (C N : ℕ) (types : List ℕ) (wH1 : View K) (wM1 : List K) (H1 M1 H2 : View K) : Option (View K) := do
  let H2 := (if H2.extent 0 < N ∨ H2.extent 1 ≠ C then View.new [N, C] 0 else H2).fill 0
  let H2 ← V.L.launch1 (H2fromH1K C N types wH1 H1 (fun _ => H2.ext)) H2
  V.L.launch1 (H2fromM1K C N wM1 M1 (fun _ => H2.ext)) H2

/-- mace_kokkos.cpp:1476-1486; `false` is `H1_adj`, `true` is `M1_adj`. -/
def reverseH2K (C N : ℕ) (types : List ℕ) (wH1 : View K) (wM1 : List K) (H2a : View K) (E : Bool → List ℕ) : Prog Bool K :=
  parFor2 N C (fun i k => forP C (fun kp => seq
    (opt (do
      let t ← types[i]?
      let a ← wH1.get [t, k * C + kp]
      let h ← H2a.get [i, kp]
      some (a * h)) (fun v => plus E false [i, 0, k] v))
    (opt (do
      let a ← wM1[k * C + kp]?
      let h ← H2a.get [i, kp]
      some (a * h)) (fun v => plus E true [i, k] v))))

/-- `reverse_H2`, mace_kokkos.cpp:1457-1488: `H1_adj`, `M1_adj`. -/
def reverseH2 (V : Env K) (C N : ℕ) (types : List ℕ) (wH1 : View K) (wM1 : List K) (zeroH : Bool) (H1 M1 H2a H1a M1a : View K) :
    Option (View K × View K) :=
  let H1a := resizeLike H1a H1
  let M1a := growLike M1a M1
  let H1a := if zeroH then H1a.fill 0 else H1a
  let M1a := M1a.fill 0
  V.L.launch2 (reverseH2K C N types wH1 wM1 H2a (fun b => if b then M1a.ext else H1a.ext)) H1a M1a

/-! ## Perceptron -/

/-- `MultilayerPerceptronKokkos`, multilayer_perceptron_kokkos.hpp. -/
structure Percep (K : Type) where
  shape : List ℕ
  w : ℕ → View K
  scale : K

/-- `if (extents differ) realloc(WithoutInitializing, v, B, n); deep_copy(v, 0)`, multilayer_perceptron_kokkos.cpp:94-99. -/
def zeroed (junk : ℕ → K) (v : View K) (B n : ℕ) : View K :=
  (if v.extent 0 ≠ B ∨ v.extent 1 ≠ n then uninit junk [B, n] else v).fill 0

/-- Rows `0..N-1` of `src` into `dst`: `deep_copy` between `(N, n)` (sub)views, throws unless the extents are equal. -/
def copyRows (N : ℕ) (dst : View K) (src : View K) (n : ℕ) : Option (View K) :=
  if N ≤ dst.extent 0 ∧ dst.extent 1 = n ∧ N ≤ src.extent 0 ∧ src.extent 1 = n then
    loop N (fun i => loop n (fun j w => do
      let x ← src.get [i, j]
      w.set [i, j] x)) dst
  else none

/-- `node(l+1)(i,p) += weights(l)(p,q) * node(l)(i,q)` for all `q`, multilayer_perceptron_kokkos.cpp:120-121, 146-147. -/
def matRow (E : Bool × ℕ → List ℕ) (w : View K) (l i p : ℕ) : Prog (Bool × ℕ) K :=
  forP (w.extent 1) (fun q => opt (w.get [p, q]) (fun a =>
    Prog.get E (false, l) [i, q] (fun x => plus E (false, l + 1) [i, p] (a * x))))

/-- Forward layer `l` of one team, multilayer_perceptron_kokkos.cpp:116-132; `last`: no activation. -/
def fwdLayer (ex : K → K) (s : Percep K) (E : Bool × ℕ → List ℕ) (i l : ℕ) (last : Bool) : Prog (Bool × ℕ) K :=
  seq (parFor ((s.w l).extent 0) (fun p => matRow E (s.w l) l i p))
    (if last then .ret [] else opt s.shape[l + 1]? (fun n =>
      parFor n (fun j => upd E (false, l + 1) [i, j] (fun x => s.scale * x / (1 + ex (-x))))))

/-- Backward layer `l` of one team, multilayer_perceptron_kokkos.cpp:141-167. -/
def bwdLayer (ex : K → K) (s : Percep K) (E : Bool × ℕ → List ℕ) (i l : ℕ) : Prog (Bool × ℕ) K :=
  seq (parFor ((s.w l).extent 0) (fun p => seq (put E (false, l + 1) [i, p] 0) (matRow E (s.w l) l i p)))
    (seq (opt s.shape[l + 1]? (fun n => parFor n (fun j => Prog.get E (false, l + 1) [i, j] (fun x =>
        let sg := 1 / (1 + ex (-x))
        upd E (true, l + 1) [i, j] (fun d => d * (s.scale * sg + s.scale * x * sg * (1 - sg)))))))
      (parFor ((s.w l).extent 1) (fun p => seq (put E (true, l) [i, p] 0)
        (forP ((s.w l).extent 0) (fun q => opt ((s.w l).get [q, p]) (fun a =>
          Prog.get E (true, l + 1) [i, q] (fun d => plus E (true, l) [i, p] (a * d))))))))

/-- The kernel of `evaluate_gradient`, multilayer_perceptron_kokkos.cpp:110-168; `(false, l)` is `node_values(l)`, `(true, l)` is
`node_derivatives(l)`.  `n = shape.size()`. -/
def percepK (ex : K → K) (s : Percep K) (B : ℕ) (E : Bool × ℕ → List ℕ) : Prog (Bool × ℕ) K :=
  let n := s.shape.length
  parFor B (fun i =>
    seq (forP (n - 1) (fun l => fwdLayer ex s E i l (l + 2 == n)))
      (seq (parFor ((E (true, n - 2)).getD 1 0) (fun p => opt ((s.w (n - 2)).get [0, p]) (fun a => put E (true, n - 2) [i, p] a)))
        (forP (n - 2) (fun k => bwdLayer ex s E i (n - 3 - k)))))

/-- `node_values` or `node_derivatives` at the start, multilayer_perceptron_kokkos.cpp:93-103. -/
def Percep.alloc (s : Percep K) (junk : ℕ → ℕ → K) (B : ℕ) (nv : ℕ → View K) : ℕ → View K := fun l =>
  match s.shape[l]? with
  | some m => zeroed (junk l) (nv l) B m
  | none => nv l

/-- `evaluate_gradient`, multilayer_perceptron_kokkos.cpp:87-172, called with the first `B` rows of `x`, `f`, `g` (mace_kokkos.cpp:
1526-1529): `f`, `g`, `node_values`, `node_derivatives`. -/
def Percep.evaluateGradient (V : Env K) (ex : K → K) (s : Percep K) (B : ℕ) (x f g : View K) (nv nd : ℕ → View K) :
    Option (View K × View K × (ℕ → View K) × (ℕ → View K)) := do
  let n := s.shape.length
  let nv := s.alloc (fun l => V.junk (2000 + l)) B nv
  let nd := s.alloc (fun l => V.junk (3000 + l)) B nd
  let n0 ← s.shape[0]?
  let v0 ← copyRows B (nv 0) x n0
  let nv : ℕ → View K := fun l => if l = 0 then v0 else nv l
  let q ← V.L.launch (percepK ex s B (fun b => if b.1 then (nd b.2).ext else (nv b.2).ext)) (fun b => if b.1 then nd b.2 else nv b.2)
  let nv := fun l => q.2 (false, l)
  let nd := fun l => q.2 (true, l)
  let f ← loop B (fun i f => do
    let a ← (nv (n - 1)).get [i, 0]
    f.set [i] a) f
  let g ← copyRows B g (nd 0) n0
  some (f, g, nv, nd)

/-! ## Readouts -/

/-- mace_kokkos.cpp:1513-1515, 1530-1532. -/
def addNodeK (N : ℕ) (v : ℕ → Option K) (E : Unit → List ℕ) : Prog Unit K := parFor N (fun i => opt (v i) (fun x => plus E () [i] x))

/-- mace_kokkos.cpp:1518-1523; `false` is `node_energies`, `true` is `H1_adj`. -/
def readout1K (C N : ℕ) (ro1 : List K) (H1 : View K) (E : Bool → List ℕ) : Prog Bool K :=
  parFor N (fun i => forP C (fun k => opt (both ro1[k]? (H1.get [i, 0, k])) (fun e =>
    seq (plus E false [i] (e.1 * e.2)) (put E true [i, 0, k] e.1))))

/-- mace_kokkos.cpp:1534-1537. -/
def totalK (N : ℕ) (energies : View K) : Prog Unit K :=
  .par N (fun i => opt (energies.get [i]) (fun x => .ret [x])) (fun vs => .ret [red 0 vs])

/-- Result of `compute_readouts`. -/
structure Readouts (K : Type) where
  energy : K
  energies : View K
  H1a : View K
  H2a : View K
  ro2 : View K
  nv : ℕ → View K
  nd : ℕ → View K

/-- `compute_readouts`, mace_kokkos.cpp:1490-1542. -/
def computeReadouts (V : Env K) (C N : ℕ) (types : List ℕ) (atomE ro1 : List K) (ex : K → K) (mlp : Percep K)
    (H1 H2 energies H1a H2a ro2 : View K) (nv nd : ℕ → View K) : Option (Readouts K) := do
  let H1a := growLike H1a H1
  let H2a := if H2a.extent 0 < N ∨ H2a.extent 1 ≠ C then View.new [N, C] 0 else H2a
  let ro2 := grow ro2 N []
  let H1a := H1a.fill 0
  let energies ← V.L.launch1 (addNodeK N (fun i => (types[i]?).bind (fun t => atomE[t]?)) (fun _ => energies.ext)) energies
  let q ← V.L.launch2 (readout1K C N ro1 H1 (fun b => if b then H1a.ext else energies.ext)) energies H1a
  let e ← mlp.evaluateGradient V ex N H2 ro2 H2a nv nd
  let energies ← V.L.launch1 (addNodeK N (fun i => e.1.get [i]) (fun _ => q.1.ext)) q.1
  let tot ← V.L.launch (totalK N energies) (fun _ => View.new [0] 0)
  let energy ← tot.1[0]?
  some ⟨energy, energies, q.2, e.2.1, e.1, e.2.2.1, e.2.2.2⟩

end env

/-! ## Pair repulsion -/

section zbl
open Verif.ZBLModel

/-- The kernel of `ZBLKokkos::compute_ZBL`, zbl_kokkos.cpp:127-152; `false` is `node_energies`, `true` is `node_forces`.  The pair
functions (zbl_kokkos.cpp:25-103) are those of `zbl.cpp` character by character except for the type of the tables. -/
noncomputable def zblK (z : ZBL) (atomicNumbers : List ℕ) (fn : List ℕ) (g : MACE.Graph ℝ) (E : Bool → List ℕ) : Prog Bool ℝ :=
  parFor g.N (fun i => opt (both fn[i]? g.nn[i]?) (fun q => opt ((g.types[i]?).bind (fun t => atomicNumbers[t]?)) (fun Zi =>
    .par q.2 (fun j => opt (do
        let tj ← g.ntypes[q.1 + j]?
        let Zj ← atomicNumbers[tj]?
        let xr ← edgeVec g (q.1 + j)
        let e ← z.compute Zi Zj xr.2
        let d ← z.computeGradient Zi Zj xr.2
        some (xr, e, d)) (fun s =>
          seq (three E true (q.1 + j) (fun a w => w - s.1.1 a / s.1.2 * s.2.2)) (.ret [s.2.1])))
      (fun vs => plus E false [i] (red 0 vs)))))

/-- `ZBLKokkos::compute_ZBL`, zbl_kokkos.cpp:105-153. -/
noncomputable def computeZBL (V : Env ℝ) (z : ZBL) (atomicNumbers : List ℕ) (g : MACE.Graph ℝ) (energies forces : View ℝ) :
    Option (View ℝ × View ℝ) := do
  let fn ← firstNeigh V g.nn g.N
  V.L.launch2 (zblK z atomicNumbers fn g (fun b => if b then forces.ext else energies.ext)) energies forces

end zbl

/-! ## The evaluator -/

/-- Members of `MACEKokkos` set by `load_from_json`.  `sph`, `dsph`, `nrm`, `ex` as in `MACE.Params`. -/
structure Params (K : Type) where
  C : ℕ
  lmax : ℕ
  Lmax : ℕ
  atomicNumbers : List ℕ
  atomicEnergies : List K
  R0h : K
  R0c : View K
  radial1 : RadialSet K
  A0spl : Option (RadialSet K)
  M0spec : ℕ → View ℕ
  M0coeff : ℕ → View K
  H1w : View K
  phil : List ℕ
  tables : Tables
  cg : List K
  numLelm : ℕ
  numLme : ℕ
  A1w : ℕ → View K
  A1wt : ℕ → View K
  A1spl : Option (RadialSet K)
  M1spec : View ℕ
  M1coeff : View K
  H2wH1 : View K
  H2wM1 : List K
  ro1 : List K
  mlp : Percep K
  sph : K → K → K → ℕ → K
  dsph : K → K → K → ℕ → ℕ → K
  nrm : K
  ex : K → K

/-- `num_lm`. -/
def Params.M {K : Type} (P : Params K) : ℕ := (P.lmax + 1) * (P.lmax + 1)

/-- `num_LM`. -/
def Params.LM {K : Type} (P : Params K) : ℕ := (P.Lmax + 1) * (P.Lmax + 1)

/-- Views that keep their content between calls. -/
structure State (K : Type) where
  energies : View K
  forces : View K
  R0 : View K
  R0d : View K
  R1 : View K
  R1d : View K
  Y : View K
  Yg : View K
  xs : View K
  Ygs : View K
  A0 : View K
  A0a : View K
  A0sv : View K
  A0sd : View K
  M0 : View K
  M0a : View K
  M0v : ℕ → View K
  M0p : ℕ → View K
  H1 : View K
  H1a : View K
  Phi1r : View K
  dPhi1r : View K
  Phi1 : View K
  dPhi1 : View K
  A1 : View K
  A1a : View K
  A1sv : View K
  A1sd : View K
  M1 : View K
  M1a : View K
  M1v : View K
  M1p : View K
  H2 : View K
  H2a : View K
  ro2 : View K
  nv : ℕ → View K
  nd : ℕ → View K

/-- Default-constructed views have extents zero. -/
def State.init (K : Type) : State K :=
  let v1 : View K := ⟨[0], []⟩
  let v2 : View K := ⟨[0, 0], []⟩
  let v3 : View K := ⟨[0, 0, 0], []⟩
  { energies := v1, forces := v1, R0 := v2, R0d := v2, R1 := v2, R1d := v2, Y := v1, Yg := v1, xs := v1, Ygs := v1, A0 := v3, A0a := v3,
    A0sv := v2, A0sd := v2, M0 := v3, M0a := v3, M0v := fun _ => v3, M0p := fun _ => v3, H1 := v3, H1a := v3, Phi1r := v3, dPhi1r := v3,
    Phi1 := v3, dPhi1 := v3, A1 := v3, A1a := v3, A1sv := v2, A1sd := v2, M1 := v2, M1a := v2, M1v := v3, M1p := v3, H2 := v2, H2a := v2,
    ro2 := v1, nv := fun _ => v2, nd := fun _ => v2 }

/-- Growing and clearing of the outputs, mace_kokkos.cpp:59-64. -/
def startOutputs {K : Type} [Zero K] (N Ex3 : ℕ) (energies forces : View K) : View K × View K :=
  ((if energies.ext.prod < N then View.new [N] 0 else energies).fill 0,
    (if forces.ext.prod < Ex3 then View.new [Ex3] 0 else forces).fill 0)

/-- `if (A0_scaled) compute_A0_scaled(…)`, `if (A1_scaled) compute_A1_scaled(…)`, mace_kokkos.cpp:76, 82; `spl` is `none` when the flag is off. -/
def scaledFwd {K : Type} [Field K] [LinearOrder K] [FloorRing K] (V : Env K) (C M : ℕ) (spl : Option (RadialSet K)) (g : MACE.Graph K)
    (sv sd A : View K) : Option (View K × View K × View K) :=
  match spl with
  | some spl => computeScaled V C M spl g sv sd A
  | none => some (sv, sd, A)

/-- `if (A1_scaled) reverse_A1_scaled(…)`, `if (A0_scaled) reverse_A0_scaled(…)`, mace_kokkos.cpp:90, 96. -/
def scaledBwd {K : Type} [Field K] (V : Env K) (C M : ℕ) (spl : Option (RadialSet K)) (g : MACE.Graph K)
    (sv sd A forces Aa : View K) : Option (View K × View K) :=
  match spl with
  | some _ => reverseScaled V C M g sv sd A forces Aa
  | none => some (forces, Aa)

/-- `compute_node_energies_forces` after the ZBL call, mace_kokkos.cpp:71-97; `energies`, `forces` are the outputs so far. -/
def evalRest {K : Type} [Field K] [LinearOrder K] [FloorRing K] (V : Env K) (P : Params K) (g : MACE.Graph K) (energies forces : View K)
    (s : State K) : Option (State K) := do
  let r0 ← computeR0 V P.C P.lmax P.atomicNumbers.length P.R0h P.R0c g s.R0 s.R0d
  let r1 ← computeRadial V (P.phil.length * P.C) P.radial1 g s.R1 s.R1d
  let y ← computeY V P.M P.sph P.dsph P.nrm g.xyz s.Y s.Yg s.xs s.Ygs
  let A0 ← computeA0 V P.C P.M g r0.1 y.1 s.A0
  let a0 ← scaledFwd V P.C P.M P.A0spl g s.A0sv s.A0sd A0
  let m0 ← computeM0 V P.C P.M P.LM g.N g.types P.M0spec P.M0coeff a0.2.2 s.M0 s.M0v
  let H1 ← computeH1 V P.C P.Lmax g.N P.H1w m0.1 s.H1
  let p1 ← computePhi1 V P.C P.M P.numLelm P.numLme P.cg P.tables g r1.1 y.1 H1 s.Phi1r s.Phi1
  let A1 ← computeA1 V P.C P.M P.lmax g.N P.phil P.A1w p1.2 s.A1
  let a1 ← scaledFwd V P.C P.M P.A1spl g s.A1sv s.A1sd A1
  let m1 ← computeM1 V P.C P.M g.N g.types P.M1spec P.M1coeff a1.2.2 s.M1 s.M1v
  let H2 ← computeH2 V P.C g.N g.types P.H2wH1 P.H2wM1 H1 m1.1 s.H2
  let ro ← computeReadouts V P.C g.N g.types P.atomicEnergies P.ro1 P.ex P.mlp H1 H2 energies s.H1a s.H2a s.ro2 s.nv s.nd
  let h2 ← reverseH2 V P.C g.N g.types P.H2wH1 P.H2wM1 false H1 m1.1 ro.H2a ro.H1a s.M1a
  let ra1 ← reverseM1 V P.C P.M g.N g.types P.M1spec P.M1coeff a1.2.2 s.A1a h2.2 m1.2 s.M1p
  let f1 ← scaledBwd V P.C P.M P.A1spl g a1.1 a1.2.1 a1.2.2 forces ra1.1
  let dPhi1 ← reverseA1 V P.C P.numLme P.lmax g.N P.phil P.A1wt f1.2 s.dPhi1
  let rp ← reversePhi1 V P.C P.M P.numLelm P.cg P.tables g false false r1.1 r1.2 y.1 y.2.1 H1 p1.1 dPhi1 s.dPhi1r f1.1 h2.1
  let M0a ← reverseH1 V P.C P.Lmax g.N P.H1w m0.1 rp.2.2 s.M0a
  let ra0 ← reverseM0 V P.C P.M P.LM g.N g.types P.M0spec P.M0coeff a0.2.2 s.A0a M0a m0.2 s.M0p
  let f0 ← scaledBwd V P.C P.M P.A0spl g a0.1 a0.2.1 a0.2.2 rp.2.1 ra0.1
  let forces ← reverseA0 V P.C P.M g r0.1 r0.2 y.1 y.2.1 f0.2 f0.1
  some { energies := ro.energies, forces, R0 := r0.1, R0d := r0.2, R1 := r1.1, R1d := r1.2, Y := y.1, Yg := y.2.1, xs := y.2.2.1,
         Ygs := y.2.2.2, A0 := a0.2.2, A0a := f0.2, A0sv := a0.1, A0sd := a0.2.1, M0 := m0.1, M0a, M0v := m0.2, M0p := ra0.2, H1,
         H1a := rp.2.2, Phi1r := p1.1, dPhi1r := rp.1, Phi1 := p1.2, dPhi1, A1 := a1.2.2, A1a := f1.2, A1sv := a1.1, A1sd := a1.2.1,
         M1 := m1.1, M1a := h2.2, M1v := m1.2, M1p := ra1.2, H2, H2a := ro.H2a, ro2 := ro.ro2, nv := ro.nv, nd := ro.nd }

/-- `compute_node_energies_forces`, mace_kokkos.cpp:49-98. -/
noncomputable def compute (V : Env ℝ) (P : Params ℝ) (zbl : Option ZBLModel.ZBL) (g : MACE.Graph ℝ) (s : State ℝ) :
    Option (State ℝ) := do
  let o := startOutputs g.N g.xyz.length s.energies s.forces
  let o ← (match zbl with
    | some z => computeZBL V z P.atomicNumbers g o.1 o.2
    | none => some o : Option (View ℝ × View ℝ))
  evalRest V P g o.1 o.2 s

end Verif.Kokkos
