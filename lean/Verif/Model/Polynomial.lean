import Verif.Base.Loop
import Verif.Model.Tools

/-!
# Model of `multivariate_polynomial.cpp`

Variable numbers are natural numbers (negative entries of the C++ `int` vectors are outside the model).
`std::map` and `std::set` with the comparator `lex_less` are sorted lists with unique keys; `insert` keeps the
first entry.  `srt` stands for the (unstable) `std::sort` inside `_two_part_partitions`.
-/

namespace Verif.Poly

variable {K : Type} [CommRing K]

/-- What `std::sort` inside `_two_part_partitions` (tools.cpp:101-107) guarantees. -/
def SortFn (srt : List (List (List ℕ)) → List (List (List ℕ))) : Prop := ∀ l, Tools.SortedBySize l (srt l)

/-- The comparator `lex_less`, multivariate_polynomial.cpp:24-32. -/
def lexLess (v1 v2 : List ℕ) : Prop := v1.length < v2.length ∨ (v1.length = v2.length ∧ v1 < v2)

instance : DecidableRel lexLess := fun v1 v2 => by unfold lexLess; infer_instance

/-- `std::set::insert`. -/
def setInsert (x : List ℕ) : List (List ℕ) → List (List ℕ)
  | [] => [x]
  | y :: l => if lexLess x y then x :: y :: l else if lexLess y x then y :: setInsert x l else y :: l

/-- `std::map::insert`: an existing key keeps its value. -/
def mapInsert {K : Type} (x : List ℕ) (c : K) : List (List ℕ × K) → List (List ℕ × K)
  | [] => [(x, c)]
  | y :: l => if lexLess x y.1 then (x, c) :: y :: l else if lexLess y.1 x then y :: mapInsert x c l else y :: l

/-- The map of monomials and coefficients, multivariate_polynomial.cpp:36-38. -/
def buildMap {K : Type} (coeffs : List K) (monos : List (List ℕ)) : Option (List (List ℕ × K)) :=
  loop monos.length (fun i m => do
    let k ← monos[i]?
    let c ← coeffs[i]?
    pure (mapInsert k c m)) []

/-- The initial node set, multivariate_polynomial.cpp:46-51. -/
def nodeSet0 (nv : ℕ) (keys : List (List ℕ)) : List (List ℕ) :=
  keys.foldl (fun S m => setInsert m S) ((List.range nv).foldl (fun S i => setInsert [i] S) [])

/-- `find_parents`, multivariate_polynomial.cpp:55-62: the first two-block partition with both blocks in the
set (`none` = the empty vector; every partition in the list has exactly two blocks). -/
def findParents (srt : List (List (List ℕ)) → List (List (List ℕ))) (node : List ℕ) (S : List (List ℕ)) :
    Option (List ℕ × List ℕ) :=
  (srt (Tools.twoPartUnsorted node)).findSome? fun p =>
    match p[0]?, p[1]? with
    | some a, some b => if a ∈ S ∧ b ∈ S then some (a, b) else none
    | _, _ => none

/-- The `while (factors.size() == 0)` loop, multivariate_polynomial.cpp:67-72.  State: node set and
`num_auxiliary_nodes`.  `pop_back` on an empty vector is undefined, so at most `node.size()` rounds are defined:
running out of `fuel = node.size()+1` is the same undefined behaviour. -/
def popLoop (srt : List (List (List ℕ)) → List (List (List ℕ))) : ℕ → List ℕ → List (List ℕ) × ℕ →
    Option (List (List ℕ) × ℕ)
  | 0, _, _ => none
  | fuel + 1, node, (S, aux) =>
    match findParents srt node S with
    | some _ => some (S, aux)
    | none =>
      if node = [] then none
      else popLoop srt fuel node.dropLast (setInsert node.dropLast S, aux + 1)

/-- The range-for over `node_set`, multivariate_polynomial.cpp:63-73, which inserts into the set while iterating:
the iterator moves to the smallest element larger than the current one.  `none` = undefined or out of fuel. -/
def auxLoop (srt : List (List (List ℕ)) → List (List (List ℕ))) : ℕ → Option (List ℕ) → List (List ℕ) × ℕ →
    Option (List (List ℕ) × ℕ)
  | _, none, st => some st
  | 0, some _, _ => none
  | fuel + 1, some node, st =>
    if node.length = 1 then auxLoop srt fuel (st.1.find? (fun y => lexLess node y)) st
    else
      match popLoop srt (node.length + 1) node st with
      | none => none
      | some st' => auxLoop srt fuel (st'.1.find? (fun y => lexLess node y)) st'

/-- The edge list, multivariate_polynomial.cpp:76-88.  `factors[0]` of an empty vector is undefined (`none`);
`std::distance(begin, std::find(...))` is `idxOf`. -/
def buildEdges (srt : List (List (List ℕ)) → List (List (List ℕ))) (nodes : List (List ℕ)) :
    List (List ℕ) → Option (List (ℕ × ℕ))
  | [] => some []
  | node :: rest =>
    if node.length = 1 then buildEdges srt nodes rest
    else do
      let f ← findParents srt node nodes
      let es ← buildEdges srt nodes rest
      pure ((nodes.idxOf f.1, nodes.idxOf f.2) :: es)

/-- `while (monomials[i] != nodes[j]) j += 1`, multivariate_polynomial.cpp:94-96; `none` = ran past the end. -/
def advance (nodes : List (List ℕ)) (m : List ℕ) (j : ℕ) : Option ℕ :=
  ((nodes.drop j).findIdx? (fun y => y = m)).map (j + ·)

/-- The node coefficients, multivariate_polynomial.cpp:91-98. -/
def fillCoeffs {K : Type} (nodes : List (List ℕ)) : List (List ℕ × K) → ℕ → List K → Option (List K)
  | [], _, nc => some nc
  | (m, c) :: rest, j, nc => do
    let j' ← advance nodes m j
    let nc ← wr nc j' c
    fillCoeffs nodes rest j' nc

/-- Members of `MultivariatePolynomial` (multivariate_polynomial.hpp:21-32). -/
structure Poly (K : Type) where
  numVariables : ℕ
  coefficients : List K
  monomials : List (List ℕ)
  numAux : ℕ
  nodes : List (List ℕ)
  edges : List (ℕ × ℕ)
  nodeCoefficients : List K
  nodeValues : List K
  nodeAdjoints : List K

/-- Constructor, multivariate_polynomial.cpp:10-101.  The constructor parameters shadow the members, so the members
`coefficients` and `monomials` keep the input order. -/
def Poly.mk? (srt : List (List (List ℕ)) → List (List (List ℕ))) (nv : ℕ) (coeffs : List K)
    (monos : List (List ℕ)) : Option (Poly K) := do
  let map ← buildMap coeffs monos
  let S0 := nodeSet0 nv (map.map Prod.fst)
  let st ← auxLoop srt (S0.length + 1) S0.head? (S0, 0)
  let nodes := st.1
  let edges ← buildEdges srt nodes nodes
  let nc ← fillCoeffs nodes map 0 (List.replicate nodes.length 0)
  pure { numVariables := nv, coefficients := coeffs, monomials := monos, numAux := st.2, nodes := nodes,
         edges := edges, nodeCoefficients := nc, nodeValues := List.replicate nodes.length 0,
         nodeAdjoints := List.replicate nodes.length 0 }

/-! ## Single evaluation -/

/-- `initialize_forward_pass`, multivariate_polynomial.cpp:149-154. -/
def initForward (nv : ℕ) (x : List K) (vals : List K) : Option (List K) :=
  loop nv (fun i v => do
    let a ← x[i]?
    wr v i a) vals

/-- `forward_pass`, multivariate_polynomial.cpp:156-162. -/
def forwardPass (nv : ℕ) (edges : List (ℕ × ℕ)) (vals : List K) : Option (List K) :=
  loop edges.length (fun i v => do
    let e ← edges[i]?
    let a ← v[e.1]?
    let b ← v[e.2]?
    wr v (nv + i) (a * b)) vals

/-- `cblas_ddot(n, a, 1, b, 1)`. -/
def ddot (n : ℕ) (a b : List K) : Option K :=
  sumO n (fun i => do
    let x ← a[i]?
    let y ← b[i]?
    pure (x * y))

/-- `cblas_dcopy(n, a, 1, b, 1)`. -/
def dcopy (n : ℕ) (a b : List K) : Option (List K) :=
  loop n (fun i b => do
    let x ← a[i]?
    wr b i x) b

/-- `backward_pass`, multivariate_polynomial.cpp:171-178: `i` runs from `edges.size()-1` down to `0`. -/
def backwardPass (nv : ℕ) (edges : List (ℕ × ℕ)) (vals adjs : List K) : Option (List K) :=
  loop edges.length (fun k w => do
    let i := edges.length - 1 - k
    let e ← edges[i]?
    let a ← w[nv + i]?
    let v1 ← vals[e.2]?
    let w ← ad w e.1 (a * v1)
    let a ← w[nv + i]?
    let v0 ← vals[e.1]?
    ad w e.2 (a * v0)) adjs

/-- `extract_gradient_from_graph`, multivariate_polynomial.cpp:180-187. -/
def extractGradient (nv : ℕ) (adjs : List K) : Option (List K) :=
  loop nv (fun i g => do
    let a ← adjs[i]?
    wr g i a) (List.replicate nv 0)

/-- `evaluate`, multivariate_polynomial.cpp:103-112. -/
def Poly.evaluate (P : Poly K) (x : List K) : Option (K × Poly K) := do
  let v ← initForward P.numVariables x P.nodeValues
  let v ← forwardPass P.numVariables P.edges v
  let f ← ddot P.nodeCoefficients.length P.nodeCoefficients v
  pure (f, { P with nodeValues := v })

/-- `evaluate_gradient`, multivariate_polynomial.cpp:114-127. -/
def Poly.evaluateGradient (P : Poly K) (x : List K) : Option (K × List K × Poly K) := do
  let v ← initForward P.numVariables x P.nodeValues
  let v ← forwardPass P.numVariables P.edges v
  let f ← ddot P.nodeCoefficients.length P.nodeCoefficients v
  let w ← dcopy P.nodeCoefficients.length P.nodeCoefficients P.nodeAdjoints
  let w ← backwardPass P.numVariables P.edges v w
  let g ← extractGradient P.numVariables w
  pure (f, g, { P with nodeValues := v, nodeAdjoints := w })

/-! ## Batched evaluation -/

/-- `batched_initialize_forward_pass`, multivariate_polynomial.cpp:189-197. -/
def bInitForward (nv n B : ℕ) (x : List K) (vals : List K) : Option (List K) :=
  loop nv (fun i => loop B (fun j v => do
    let a ← x[j * nv + i]?
    wr v (i * B + j) a)) (resize vals (B * n))

/-- `batched_forward_pass`, multivariate_polynomial.cpp:199-211. -/
def bForwardPass (nv : ℕ) (edges : List (ℕ × ℕ)) (B : ℕ) (vals : List K) : Option (List K) :=
  loop edges.length (fun i v => do
    let e ← edges[i]?
    loop B (fun j v => do
      let a ← v[e.1 * B + j]?
      let b ← v[e.2 * B + j]?
      wr v ((nv + i) * B + j) (a * b)) v) vals

/-- The accumulation of `f` in `evaluate_batch`, multivariate_polynomial.cpp:136-142. -/
def bValues (n B : ℕ) (nc vals : List K) : Option (List K) :=
  loop n (fun i f => do
    let c ← nc[i]?
    loop B (fun j f => do
      let v ← vals[i * B + j]?
      ad f j (c * v)) f) (List.replicate B 0)

/-- `batched_initialize_backward_pass`, multivariate_polynomial.cpp:213-222. -/
def bInitBackward (n B : ℕ) (nc adjs : List K) : Option (List K) :=
  loop nc.length (fun i => loop B (fun j w => do
    let c ← nc[i]?
    wr w (i * B + j) c)) (resize adjs (B * n))

/-- `batched_backward_pass`, multivariate_polynomial.cpp:224-239. -/
def bBackwardPass (nv : ℕ) (edges : List (ℕ × ℕ)) (B : ℕ) (vals adjs : List K) : Option (List K) :=
  loop edges.length (fun k w => do
    let i := edges.length - 1 - k
    let e ← edges[i]?
    let w ← loop B (fun j w => do
      let a ← w[(nv + i) * B + j]?
      let v1 ← vals[e.2 * B + j]?
      ad w (e.1 * B + j) (a * v1)) w
    loop B (fun j w => do
      let a ← w[(nv + i) * B + j]?
      let v0 ← vals[e.1 * B + j]?
      ad w (e.2 * B + j) (a * v0)) w) adjs

/-- `batched_extract_gradient_from_graph`, multivariate_polynomial.cpp:241-250. -/
def bExtractGradient (nv B : ℕ) (adjs : List K) : Option (List K) :=
  loop nv (fun i => loop B (fun j g => do
    let a ← adjs[i * B + j]?
    wr g (j * nv + i) a)) (List.replicate (nv * B) 0)

/-- `evaluate_batch`, multivariate_polynomial.cpp:129-147. -/
def Poly.evaluateBatch (P : Poly K) (x : List K) (B : ℕ) : Option (List K × List K × Poly K) := do
  let v ← bInitForward P.numVariables P.nodes.length B x P.nodeValues
  let v ← bForwardPass P.numVariables P.edges B v
  let f ← bValues P.nodes.length B P.nodeCoefficients v
  let w ← bInitBackward P.nodes.length B P.nodeCoefficients P.nodeAdjoints
  let w ← bBackwardPass P.numVariables P.edges B v w
  let g ← bExtractGradient P.numVariables B w
  pure (f, g, { P with nodeValues := v, nodeAdjoints := w })

/-! ## Direct evaluation -/

/-- `double monomial = x[m[0]]; for (j=1..) monomial *= x[m[j]]`, multivariate_polynomial.cpp:256-259. -/
def monoValue (x : List K) (m : List ℕ) : Option K := do
  let v0 ← m[0]?
  let a ← x[v0]?
  loop (m.length - 1) (fun j y => do
    let v ← m[j + 1]?
    let a ← x[v]?
    pure (y * a)) a

/-- `evaluate_simple`, multivariate_polynomial.cpp:252-263. -/
def Poly.evaluateSimple (P : Poly K) (x : List K) : Option K :=
  sumO P.coefficients.length (fun i => do
    let c ← P.coefficients[i]?
    let m ← P.monomials[i]?
    let y ← monoValue x m
    pure (c * y))

/-- Product of all factors but the `j`-th, multivariate_polynomial.cpp:280-284. -/
def monoDeriv (x : List K) (m : List ℕ) (j : ℕ) : Option K :=
  loop m.length (fun k y => if k = j then some y else do
    let v ← m[k]?
    let a ← x[v]?
    pure (y * a)) 1

/-- `evaluate_gradient_simple`, multivariate_polynomial.cpp:265-289. -/
def Poly.evaluateGradientSimple (P : Poly K) (x : List K) : Option (K × List K) := do
  let f ← P.evaluateSimple x
  let g ← loop P.coefficients.length (fun i g => do
    let c ← P.coefficients[i]?
    let m ← P.monomials[i]?
    loop m.length (fun j g => do
      let v ← m[j]?
      let d ← monoDeriv x m j
      ad g v (c * d)) g) (List.replicate P.numVariables 0)
  pure (f, g)

/-! ## Call histories -/

/-- States an object can reach from `P0` by completed calls of the evaluators (batches with at least `1` input). -/
inductive Reach (P0 : Poly K) : Poly K → Prop
  | init : Reach P0 P0
  | evaluate {P P' : Poly K} {x : List K} {f : K} : Reach P0 P → P.evaluate x = some (f, P') → Reach P0 P'
  | evaluateGradient {P P' : Poly K} {x : List K} {f : K} {g : List K} :
      Reach P0 P → P.evaluateGradient x = some (f, g, P') → Reach P0 P'
  | evaluateBatch {P P' : Poly K} {x : List K} {B : ℕ} {f g : List K} :
      Reach P0 P → 1 ≤ B → P.evaluateBatch x B = some (f, g, P') → Reach P0 P'

end Verif.Poly
