import Verif.Spec.MACEFile

/-!
# `int` arithmetic for sizes and offsets in `MACE::compute_node_energies_forces`

The other models compute sizes and offsets with natural numbers.  Here are the expressions of type `int` themselves, in the order in
which the functions evaluate them: every intermediate result has to be at most `2^31 - 1`, otherwise the behaviour is undefined.
Only the `int` expressions of mace.cpp:17-903, cubic_spline_set.cpp:50-84 (`evaluate_derivs`) and `compute_ZBL`
(zbl.cpp:96-124) are here; floating-point work, the insides of BLAS, sphericart, polynomials, perceptron and `CubicSpline` are left out.
Values are never negative; a loop `for (m=-l; m<=l; ++m)` runs over `m+l`.  Loop counters end at their bound.
-/

namespace Verif.IntIndex
open Verif.MACE Verif.Spec

/-- An `int` expression; `n` is a value that is already an `int`. -/
inductive Ex where
  | n : ℕ → Ex
  | add : Ex → Ex → Ex
  | mul : Ex → Ex → Ex

instance : Coe ℕ Ex := ⟨Ex.n⟩
instance (k : ℕ) : OfNat Ex k := ⟨Ex.n k⟩
instance : Add Ex := ⟨Ex.add⟩
instance : Mul Ex := ⟨Ex.mul⟩

def Ex.val : Ex → ℕ
  | .n k => k
  | .add a b => a.val + b.val
  | .mul a b => a.val * b.val

/-- No sub-expression exceeds the largest `int`. -/
def Ex.ok : Ex → Bool
  | .n _ => true
  | .add a b => a.ok && b.ok && decide (a.val + b.val < 2 ^ 31)
  | .mul a b => a.ok && b.ok && decide (a.val * b.val < 2 ^ 31)

/-- Evaluation: `none` is undefined behaviour by overflow. -/
def ev (e : Ex) : Option Unit := if e.ok then some () else none

/-- A `size_t` stored in an `int`, or reached by an `int` counter: `none` when it is not represented. -/
def narrow (k : ℕ) : Option Unit := if k < 2 ^ 31 then some () else none

/-- `for (int i=0; i<n; ++i)`. -/
def each (n : ℕ) (f : ℕ → Option Unit) : Option Unit := loop n (fun i _ => f i) ()

/-- `for (int j=0; j<n; ++j) { …; ij += 1; }`. -/
def inner (n : ℕ) (f : ℕ → Option Unit) (ij : ℕ) : Option ℕ :=
  loop n (fun _ ij => (f ij).bind (fun _ => (ev ((ij : Ex) + 1)).bind (fun _ => some (ij + 1)))) ij

/-- `int ij = 0; for (int i=0; i<num_nodes; ++i) …` with the loop over the neighbours of `i` between `pre` and `post`. -/
def edges (T : Sys) (pre : ℕ → Option Unit) (f : ℕ → ℕ → Option Unit) (post : ℕ → Option Unit) : Option Unit :=
  (loop T.N (fun i ij => do
    pre i
    let ij ← inner (nthN T.nn i) (f i) ij
    post i
    pure ij) 0).map (fun _ => ())

section
variable (f : File)

abbrev M : ℕ := (f.lmax + 1) * (f.lmax + 1)
abbrev LM : ℕ := (f.Lmax + 1) * (f.Lmax + 1)
abbrev C : ℕ := f.numChannels
/-- `spl_set_0[0]->num_splines` -/
abbrev spl0 : ℕ := (tbl f.vals0 0).length
/-- `spl_set_1[0]->num_splines` -/
abbrev spl1 : ℕ := (tbl f.vals1 0).length
abbrev numLme : ℕ := (f.phil.map (fun l => 2 * l + 1)).sum
abbrev numLelm : ℕ := f.couplings.length

/-- `compute_ZBL`, zbl.cpp:96-124. -/
def zbl (T : Sys) : Option Unit :=
  edges T (fun _ => some ()) (fun _ ij => do
    ev (3 * (ij : Ex))
    ev (3 * (ij : Ex) + 1)
    ev (3 * (ij : Ex) + 2)) (fun _ => some ())

/-- `evaluate_derivs`, cubic_spline_set.cpp:50-84, `i = static_cast<int>(r/h)`. -/
def evaluateDerivs (ns i : ℕ) : Option Unit := do
  ev (4 * (i : Ex) * (ns : Ex))
  ev ((4 * (i : Ex) + 1) * (ns : Ex))

/-- `compute_R0`, mace.cpp:66-90, and `compute_R1`, mace.cpp:92-116; `type_ij` is computed with `size_t`. -/
def computeR (ns : ℕ) (cell : ℕ → ℕ) (T : Sys) : Option Unit :=
  edges T (fun _ => some ()) (fun _ ij => do
    ev ((ij : Ex) * (ns : Ex))
    ev ((ij : Ex) * (ns : Ex))
    evaluateDerivs ns (cell ij)) (fun _ => some ())

/-- `compute_Y`, mace.cpp:118-148; `xyz.size()/3 = E`. -/
def computeY (T : Sys) : Option Unit := if T.E = 0 then some () else do
  narrow T.E
  ev ((T.E : Ex) * (M f : Ex))
  ev (3 * (T.E : Ex) * (M f : Ex))
  ev (3 * (T.E : Ex))
  each T.E (fun i => do
    ev (3 * (i : Ex))
    ev (3 * (i : Ex) + 2)
    ev (3 * (i : Ex) + 1))
  narrow (T.E * M f)
  narrow (3 * T.E * M f)
  each T.E (fun i => each (M f) (fun lm => do
    ev (3 * (i : Ex) * (M f : Ex) + 0 * (M f : Ex) + (lm : Ex))
    ev (3 * (i : Ex) * (M f : Ex) + 1 * (M f : Ex) + (lm : Ex))
    ev (3 * (i : Ex) * (M f : Ex) + 2 * (M f : Ex) + (lm : Ex))))

/-- `l*l+l+m` with `m = m' - l`, and `lm*num_channels`. -/
def lmOff (l m' : ℕ) : Option Unit := do
  ev ((l : Ex) * (l : Ex) + (l : Ex))
  ev (((l * l + m' : ℕ) : Ex) * (C f : Ex))

/-- `compute_A0`, mace.cpp:150-201. -/
def computeA0 (T : Sys) : Option Unit := do
  ev ((T.N : Ex) * (M f : Ex) * (C f : Ex))
  edges T (fun _ => ev ((M f : Ex) * (C f : Ex))) (fun _ ij => do
    ev ((ij : Ex) * (M f : Ex))
    ev ((nthN T.ntypes ij : Ex) * (C f : Ex))
    each (f.lmax + 1) (fun l => do
      ev ((ij : Ex) * ((f.lmax : Ex) + 1) * (C f : Ex))
      ev ((l : Ex) * (C f : Ex))
      each (2 * l + 1) (lmOff f l)))
    (fun i => each (f.lmax + 1) (fun l => do
      ev ((l : Ex) * (l : Ex) * (C f : Ex))
      ev (((i : Ex) * (M f : Ex) + (l : Ex) * (l : Ex)) * (C f : Ex))
      ev (2 * (l : Ex) + 1)))

/-- `reverse_A0`, mace.cpp:203-271. -/
def reverseA0 (T : Sys) : Option Unit :=
  edges T (fun i => do
    ev ((M f : Ex) * (C f : Ex))
    each (f.lmax + 1) (fun l => do
      ev ((l : Ex) * (l : Ex) * (C f : Ex))
      ev (((i : Ex) * (M f : Ex) + (l : Ex) * (l : Ex)) * (C f : Ex))
      ev (2 * (l : Ex) + 1)))
    (fun _ ij => do
      ev ((ij : Ex) * 3)
      ev ((ij : Ex) * (M f : Ex))
      ev ((ij : Ex) * 3 * (M f : Ex))
      ev ((nthN T.ntypes ij : Ex) * (C f : Ex))
      ev ((ij : Ex) * 3)
      each (f.lmax + 1) (fun l => do
        ev ((ij : Ex) * ((f.lmax : Ex) + 1) * (C f : Ex))
        ev ((l : Ex) * (C f : Ex))
        each (2 * l + 1) (fun m' => do
          lmOff f l m'
          ev ((M f : Ex) + ((l * l + m' : ℕ) : Ex))
          ev (2 * (M f : Ex) + ((l * l + m' : ℕ) : Ex)))))
    (fun _ => some ())

/-- `compute_A0_scaled`, mace.cpp:273-297, and `compute_A1_scaled`, mace.cpp:681-705. -/
def computeScaled (scaled : Bool) (T : Sys) : Option Unit :=
  if scaled then edges T (fun _ => some ()) (fun _ _ => some ()) (fun i => do
    ev ((i : Ex) * (M f : Ex) * (C f : Ex))
    ev ((M f : Ex) * (C f : Ex)))
  else some ()

/-- `reverse_A0_scaled`, mace.cpp:299-346, and `reverse_A1_scaled`, mace.cpp:707-757: the neighbours are visited twice. -/
def reverseScaled (scaled : Bool) (T : Sys) : Option Unit :=
  if scaled then (loop T.N (fun i ij => do
    ev ((i : Ex) * (M f : Ex) * (C f : Ex))
    ev ((i : Ex) * (M f : Ex) * (C f : Ex))
    let ij ← inner (nthN T.nn i) (fun _ => some ()) ij
    ev ((M f : Ex) * (C f : Ex))
    let ij ← inner (nthN T.nn i) (fun ij => ev ((ij : Ex) * 3)) (ij - nthN T.nn i)
    pure ij) 0).map (fun _ => ())
  else some ()

/-- `compute_M0`, mace.cpp:348-370. -/
def computeM0 (T : Sys) : Option Unit := do
  ev ((T.N : Ex) * (LM f : Ex) * (C f : Ex))
  ev ((T.N : Ex) * (C f : Ex) * (LM f : Ex) * (M f : Ex))
  each T.N (fun i => do
    ev ((i : Ex) * (M f : Ex) * (C f : Ex))
    ev ((i : Ex) * (LM f : Ex) * (C f : Ex))
    ev ((i : Ex) * (LM f : Ex) * (C f : Ex) * (M f : Ex))
    each (LM f) (fun lm => each (C f) (fun k => do
      ev ((nthN T.types i : Ex) * (LM f : Ex) * (C f : Ex) + ((lm * C f + k : ℕ) : Ex))
      ev ((lm : Ex) * (M f : Ex) * (C f : Ex))
      ev (((lm * C f + k : ℕ) : Ex) + 1))))

/-- `reverse_M0`, mace.cpp:372-395. -/
def reverseM0 (T : Sys) : Option Unit :=
  each T.N (fun i => do
    ev ((i : Ex) * (M f : Ex) * (C f : Ex))
    ev ((i : Ex) * (LM f : Ex) * (C f : Ex))
    ev ((i : Ex) * (LM f : Ex) * (M f : Ex) * (C f : Ex))
    each (M f) (fun lm => do
      ev ((lm : Ex) * (C f : Ex))
      each (LM f) (fun lmp => do
        ev ((lmp : Ex) * (C f : Ex))
        ev ((lmp : Ex) * (M f : Ex) * (C f : Ex))
        ev ((lm : Ex) * (C f : Ex)))))

/-- `compute_H1`, mace.cpp:397-423, and `reverse_H1`, mace.cpp:425-451. -/
def H1ints (T : Sys) : Option Unit :=
  each T.N (fun i => each (f.Lmax + 1) (fun l => do
    ev (((i : Ex) * (LM f : Ex) + (l : Ex) * (l : Ex)) * (C f : Ex))
    ev ((l : Ex) * (C f : Ex) * (C f : Ex))
    ev (2 * (l : Ex) + 1)))

/-- The loops over `lel1l2`, `lm1`, `lm2` (`lm1 = l1*l1+a`, `lm2 = l2*l2+b`), mace.cpp:470-487; `q` is `lelm1lm2`. -/
def pathLoops (g : ℕ → ℕ → ℕ → Option Unit) : Option Unit :=
  (loop f.phil.length (fun le q => do
    let l1 : ℕ := nthN f.phil1 le
    let l2 : ℕ := nthN f.phil2 le
    ev ((le : Ex) * (C f : Ex))
    ev ((l1 : Ex) * (l1 : Ex))
    ev ((l1 : Ex) * ((l1 : Ex) + 2))
    loop (2 * l1 + 1) (fun a q => do
      ev ((l2 : Ex) * (l2 : Ex))
      ev ((l2 : Ex) * ((l2 : Ex) + 2))
      loop (2 * l2 + 1) (fun b q => do
        g (l1 * l1 + a) (l2 * l2 + b) q
        ev ((q : Ex) + 1)
        pure (q + 1)) q) q) 0).map (fun _ => ())

/-- The loops over the Clebsch-Gordan coefficients, mace.cpp:492-501 and 516-526. -/
def cgLoops (T : Sys) : Option Unit :=
  each T.N (fun i => do
    ev ((i : Ex) * (numLme f : Ex) * (C f : Ex))
    ev ((i : Ex) * (numLelm f : Ex) * (C f : Ex))
    narrow f.cg.length
    each f.cg.length (fun p => do
      ev ((nthN f.philme p : Ex) * (C f : Ex))
      ev ((nthN f.philelm p : Ex) * (C f : Ex))))

/-- `compute_Phi1`, mace.cpp:453-502. -/
def computePhi1 (T : Sys) : Option Unit := do
  ev ((T.N : Ex) * (numLelm f : Ex) * (C f : Ex))
  edges T (fun i => ev ((i : Ex) * (numLelm f : Ex) * (C f : Ex))) (fun _ ij => do
    ev ((ij : Ex) * (spl1 f : Ex))
    ev ((ij : Ex) * (M f : Ex))
    ev ((nthN T.idx ij : Ex) * (LM f : Ex) * (C f : Ex))
    pathLoops f (fun _ lm2 q => do
      ev ((lm2 : Ex) * (C f : Ex))
      ev ((q : Ex) * (C f : Ex)))) (fun _ => some ())
  ev ((T.N : Ex) * (numLme f : Ex) * (C f : Ex))
  cgLoops f T

/-- `reverse_Phi1`, mace.cpp:504-605. -/
def reversePhi1 (T : Sys) : Option Unit := do
  cgLoops f T
  edges T (fun i => ev ((i : Ex) * (numLelm f : Ex) * (C f : Ex))) (fun _ ij => do
    ev (3 * (ij : Ex))
    ev ((ij : Ex) * (spl1 f : Ex))
    ev ((ij : Ex) * (M f : Ex))
    ev ((ij : Ex) * 3 * (M f : Ex))
    ev ((nthN T.idx ij : Ex) * (LM f : Ex) * (C f : Ex))
    pathLoops f (fun lm1 lm2 q => do
      ev (0 * (M f : Ex) + (lm1 : Ex))
      ev (1 * (M f : Ex) + (lm1 : Ex))
      ev (2 * (M f : Ex) + (lm1 : Ex))
      ev ((lm2 : Ex) * (C f : Ex))
      ev ((q : Ex) * (C f : Ex)))) (fun _ => some ())
  edges T (fun i => ev ((i : Ex) * (numLelm f : Ex) * (C f : Ex))) (fun _ ij => do
    ev ((ij : Ex) * (spl1 f : Ex))
    ev ((ij : Ex) * (M f : Ex))
    ev ((nthN T.idx ij : Ex) * (LM f : Ex) * (C f : Ex))
    pathLoops f (fun _ lm2 q => do
      ev ((lm2 : Ex) * (C f : Ex))
      ev ((q : Ex) * (C f : Ex)))) (fun _ => some ())

/-- `num_lme`, `num_e`, mace.cpp:613-618 and 650-655. -/
def countE : Option Unit :=
  (loop f.phil.length (fun p (n : ℕ) => do
    let l : ℕ := nthN f.phil p
    ev (2 * (l : Ex) + 1)
    ev ((n : Ex) + (2 * (l : Ex) + 1))
    ev (((f.phil.take p).count l : Ex) + 1)
    pure (n + (2 * l + 1))) 0).map (fun _ => ())

/-- `compute_A1`, mace.cpp:607-642, without the size of `A1`, and `reverse_A1`, mace.cpp:644-679. -/
def A1ints (T : Sys) : Option Unit := do
  ev ((f.lmax : Ex) + 1)
  countE f
  each T.N (fun i => do
    ev ((i : Ex) * (numLme f : Ex) * (C f : Ex))
    ev ((i : Ex) * (M f : Ex) * (C f : Ex))
    each (f.lmax + 1) (fun l => do
      ev (2 * (l : Ex) + 1)
      ev ((f.phil.count l : Ex) * (C f : Ex))
      ev ((2 * (l : Ex) + 1) * (f.phil.count l : Ex) * (C f : Ex))
      ev ((2 * (l : Ex) + 1) * (C f : Ex))))

/-- `compute_A1`. -/
def computeA1 (T : Sys) : Option Unit := do
  ev ((T.N : Ex) * (M f : Ex) * (C f : Ex))
  A1ints f T

/-- `compute_M1`, mace.cpp:759-777. -/
def computeM1 (T : Sys) : Option Unit := do
  ev ((T.N : Ex) * (C f : Ex))
  ev ((T.N : Ex) * (C f : Ex) * (M f : Ex) * (C f : Ex))
  each T.N (fun i => do
    ev ((i : Ex) * (M f : Ex) * (C f : Ex))
    ev ((i : Ex) * (C f : Ex))
    ev ((i : Ex) * (C f : Ex) * (M f : Ex))
    each (C f) (fun k => ev ((nthN T.types i : Ex) * (C f : Ex) + (k : Ex))))

/-- `reverse_M1`, mace.cpp:779-794. -/
def reverseM1 (T : Sys) : Option Unit :=
  each T.N (fun i => do
    ev ((i : Ex) * (C f : Ex))
    each (M f) (fun lm => ev (((i : Ex) * (M f : Ex) + (lm : Ex)) * (C f : Ex))))

/-- `compute_H2`, mace.cpp:796-832. -/
def computeH2 (T : Sys) : Option Unit := do
  ev ((T.N : Ex) * (C f : Ex))
  each T.N (fun i => do
    ev ((i : Ex) * (C f : Ex))
    ev ((i : Ex) * (LM f : Ex) * (C f : Ex)))

/-- `reverse_H2`, mace.cpp:834-874. -/
def reverseH2 (T : Sys) : Option Unit :=
  each T.N (fun i => do
    ev ((i : Ex) * (C f : Ex))
    ev ((i : Ex) * (LM f : Ex) * (C f : Ex)))

/-- `compute_readouts`, mace.cpp:876-903. -/
def computeReadouts (T : Sys) : Option Unit :=
  each T.N (fun i => do
    each (C f) (fun k => ev ((i : Ex) * (LM f : Ex) * (C f : Ex) + (k : Ex)))
    ev ((i : Ex) * (C f : Ex))
    ev (((i : Ex) + 1) * (C f : Ex))
    each (C f) (fun k => ev ((i : Ex) * (C f : Ex) + (k : Ex))))

/-- `compute_node_energies_forces`, mace.cpp:17-64; `cell e` is the interval of the length of edge `e` in the radial tables. -/
def computeInts (T : Sys) (cell : ℕ → ℕ) : Option Unit := do
  (if f.zbl.isSome then zbl T else some ())
  computeY f T
  computeR (spl0 f) cell T
  computeA0 f T
  computeScaled f f.A0scaled T
  computeM0 f T
  H1ints f T
  computeR (spl1 f) cell T
  computePhi1 f T
  computeA1 f T
  computeScaled f f.A1scaled T
  computeM1 f T
  computeH2 f T
  computeReadouts f T
  reverseH2 f T
  reverseM1 f T
  reverseScaled f f.A1scaled T
  A1ints f T
  reversePhi1 f T
  H1ints f T
  reverseM0 f T
  reverseScaled f f.A0scaled T
  reverseA0 f T

end

end Verif.IntIndex
