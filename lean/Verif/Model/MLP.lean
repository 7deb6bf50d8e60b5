import Verif.Model.Blas

/-!
# Model of `multilayer_perceptron.cpp`

`ex` stands for `std::exp`.  Vectors of vectors are lists of lists; `b[l]` of a missing row is `none`.
Networks with fewer than two layers are outside the theorems (the C++ loop bound `shape.size()-2` then wraps around).
-/

namespace Verif.MLP
open Verif.Blas

variable {K : Type} [Field K]

/-- Members of `MultilayerPerceptron` (multilayer_perceptron.hpp). -/
structure MLP (K : Type) where
  shape : List ℕ
  weights : List (List K)
  scale : K
  nodeValues : List (List K)
  nodeDerivs : List (List K)
  nodeActDerivs : List (List K)

/-- Run code on row `l` of a vector of vectors. -/
def modRow {α : Type} (b : List α) (l : ℕ) (f : α → Option α) : Option (List α) := do
  let r ← b[l]?
  let r' ← f r
  pure (b.set l r')

/-- Constructor, multilayer_perceptron.cpp:12-27. -/
def MLP.mk? (shape : List ℕ) (weights : List (List K)) (scale : K) : Option (MLP K) := do
  let last ← shape.getLast?
  pure { shape, weights, scale
         nodeValues := shape.map (fun n => List.replicate n 0)
         nodeDerivs := shape.map (fun n => List.replicate (last * n) 0)
         nodeActDerivs := shape.map (fun n => List.replicate n 0) }

/-- `for i: b[i].resize(f*shape[i])`, multilayer_perceptron.cpp:35-37, 82-86, 159-161, 211-215. -/
def resizeAll (shape : List ℕ) (f : ℕ) (b : List (List K)) : Option (List (List K)) :=
  loop shape.length (fun i b => do
    let n ← shape[i]?
    modRow b i (fun r => some (resize r (f * n)))) b

/-- `std::copy(input.begin(), input.end(), node_values[0].begin())`. -/
def copyIn (input : List K) (b : List (List K)) : Option (List (List K)) :=
  modRow b 0 (fun r => if input.length ≤ r.length then some (input ++ r.drop input.length) else none)

/-- The activation, multilayer_perceptron.cpp:56. -/
def act (ex : K → K) (scale x : K) : K := scale * x / (1 + ex (-x))

/-- The activation as written in the gradient functions, multilayer_perceptron.cpp:106-107. -/
def act' (ex : K → K) (scale x : K) : K := scale * x * (1 / (1 + ex (-x)))

/-- Its derivative as written in the code, multilayer_perceptron.cpp:108-109. -/
def actD (ex : K → K) (scale x : K) : K :=
  scale * (1 / (1 + ex (-x))) + scale * x * (1 / (1 + ex (-x))) * (1 - 1 / (1 + ex (-x)))

/-! ## Single evaluation -/

/-- The product of layer `l`, multilayer_perceptron.cpp:41-53 (and 90-102). -/
def layerProduct (M : MLP K) (l : ℕ) (nv : List (List K)) : Option (List (List K)) := do
  let n1 ← M.shape[l + 1]?
  let n0 ← M.shape[l]?
  let w ← M.weights[l]?
  let x ← nv[l]?
  modRow nv (l + 1) (gemv false n1 n0 1 w n0 x 0 0 0)

/-- Hidden layer `l`, multilayer_perceptron.cpp:40-58. -/
def layer (ex : K → K) (M : MLP K) (l : ℕ) (nv : List (List K)) : Option (List (List K)) := do
  let nv ← layerProduct M l nv
  let n1 ← M.shape[l + 1]?
  modRow nv (l + 1) (loop n1 (fun i y => md y i (act ex M.scale)))

/-- The final layer, multilayer_perceptron.cpp:60-72: weights `back()`, shapes `end()[-1]`, `end()[-2]`. -/
def finalLayer (M : MLP K) (nv : List (List K)) : Option (List (List K)) := do
  let m ← M.shape[M.shape.length - 1]?
  let n ← M.shape[M.shape.length - 2]?
  let w ← M.weights.getLast?
  let x ← nv[nv.length - 2]?
  modRow nv (nv.length - 1) (gemv false m n 1 w n x 0 0 0)

/-- `evaluate`, multilayer_perceptron.cpp:29-74. -/
def MLP.evaluate (ex : K → K) (M : MLP K) (input : List K) : Option (List K × MLP K) := do
  let nv ← resizeAll M.shape 1 M.nodeValues
  let nv ← copyIn input nv
  let nv ← loop (M.shape.length - 2) (layer ex M) nv
  let nv ← finalLayer M nv
  let out ← nv.getLast?
  pure (out, { M with nodeValues := nv })

/-- Hidden layer `l` in `evaluate_gradient`, multilayer_perceptron.cpp:89-111; state: values and activation
derivatives. -/
def layerG (ex : K → K) (M : MLP K) (l : ℕ) (s : List (List K) × List (List K)) :
    Option (List (List K) × List (List K)) := do
  let nv ← layerProduct M l s.1
  let n1 ← M.shape[l + 1]?
  let y ← nv[l + 1]?
  let d ← s.2[l + 1]?
  let yd ← loop n1 (fun i (yd : List K × List K) => do
    let x ← yd.1[i]?
    let y ← wr yd.1 i (act' ex M.scale x)
    let d ← wr yd.2 i (actD ex M.scale x)
    pure (y, d)) (y, d)
  pure (nv.set (l + 1) yd.1, s.2.set (l + 1) yd.2)

/-- One step of the backward sweep at layer `l`, multilayer_perceptron.cpp:129-147. -/
def backLayer (M : MLP K) (da : List (List K)) (l : ℕ) (nd : List (List K)) : Option (List (List K)) := do
  let o ← M.shape.getLast?
  let n1 ← M.shape[l + 1]?
  let n0 ← M.shape[l]?
  let w ← M.weights[l]?
  let d ← da[l + 1]?
  let nd ← modRow nd (l + 1) (loop o (fun i => loop n1 (fun j r => do
    let x ← d[j]?
    md r (i * n1 + j) (fun z => z * x))))
  let a ← nd[l + 1]?
  modRow nd l (gemm false false o n0 n1 1 a 0 n1 w 0 n0 0 0 n0)

/-- `evaluate_gradient`, multilayer_perceptron.cpp:76-150. -/
def MLP.evaluateGradient (ex : K → K) (M : MLP K) (input : List K) : Option (List K × List K × MLP K) := do
  let o ← M.shape.getLast?
  let nv ← resizeAll M.shape 1 M.nodeValues
  let da ← resizeAll M.shape 1 M.nodeActDerivs
  let nd ← resizeAll M.shape o M.nodeDerivs
  let nv ← copyIn input nv
  let s ← loop (M.shape.length - 2) (layerG ex M) (nv, da)
  let nv ← finalLayer M s.1
  let w ← M.weights.getLast?
  let nd ← modRow nd (nd.length - 2) (fun _ => some w)
  let nd ← loop (M.shape.length - 2) (fun k => backLayer M s.2 (M.shape.length - 3 - k)) nd
  let out ← nv.getLast?
  let jac ← nd[0]?
  pure (out, jac, { M with nodeValues := nv, nodeDerivs := nd, nodeActDerivs := s.2 })

/-! ## Batched evaluation -/

/-- Product of layer `l` for a batch, multilayer_perceptron.cpp:165-179 (and 219-233). -/
def bLayerProduct (M : MLP K) (B l : ℕ) (nv : List (List K)) : Option (List (List K)) := do
  let n1 ← M.shape[l + 1]?
  let n0 ← M.shape[l]?
  let w ← M.weights[l]?
  let x ← nv[l]?
  modRow nv (l + 1) (gemm false true B n1 n0 1 x 0 n0 w 0 n0 0 0 n1)

/-- Hidden layer for a batch, multilayer_perceptron.cpp:164-184; the loop bound is `node_values[l+1].size()`. -/
def bLayer (ex : K → K) (M : MLP K) (B l : ℕ) (nv : List (List K)) : Option (List (List K)) := do
  let nv ← bLayerProduct M B l nv
  modRow nv (l + 1) (fun y => loop y.length (fun i y => md y i (act ex M.scale)) y)

/-- Final layer for a batch, multilayer_perceptron.cpp:186-200. -/
def bFinalLayer (M : MLP K) (B : ℕ) (nv : List (List K)) : Option (List (List K)) := do
  let m ← M.shape[M.shape.length - 1]?
  let n ← M.shape[M.shape.length - 2]?
  let w ← M.weights.getLast?
  let x ← nv[nv.length - 2]?
  modRow nv (nv.length - 1) (gemm false true B m n 1 x 0 n w 0 n 0 0 m)

/-- `evaluate_batch`, multilayer_perceptron.cpp:152-202. -/
def MLP.evaluateBatch (ex : K → K) (M : MLP K) (input : List K) (B : ℕ) : Option (List K × MLP K) := do
  let nv ← resizeAll M.shape B M.nodeValues
  let nv ← copyIn input nv
  let nv ← loop (M.shape.length - 2) (bLayer ex M B) nv
  let nv ← bFinalLayer M B nv
  let out ← nv.getLast?
  pure (out, { M with nodeValues := nv })

/-- Hidden layer in `evaluate_gradient_batch`, multilayer_perceptron.cpp:218-241. -/
def bLayerG (ex : K → K) (M : MLP K) (B l : ℕ) (s : List (List K) × List (List K)) :
    Option (List (List K) × List (List K)) := do
  let nv ← bLayerProduct M B l s.1
  let y ← nv[l + 1]?
  let d ← s.2[l + 1]?
  let yd ← loop y.length (fun i (yd : List K × List K) => do
    let x ← yd.1[i]?
    let y ← wr yd.1 i (act' ex M.scale x)
    let d ← wr yd.2 i (actD ex M.scale x)
    pure (y, d)) (y, d)
  pure (nv.set (l + 1) yd.1, s.2.set (l + 1) yd.2)

/-- `std::copy` of the last weights into each batch block, multilayer_perceptron.cpp:258-260. -/
def bCopyWeights (w : List K) (B : ℕ) (r : List K) : Option (List K) :=
  loop B (fun i r => loop w.length (fun j r => do
    let x ← w[j]?
    wr r (i * w.length + j) x) r) r

/-- One backward step for a batch, multilayer_perceptron.cpp:262-284. -/
def bBackLayer (M : MLP K) (B : ℕ) (da : List (List K)) (l : ℕ) (nd : List (List K)) : Option (List (List K)) := do
  let o ← M.shape.getLast?
  let n1 ← M.shape[l + 1]?
  let n0 ← M.shape[l]?
  let w ← M.weights[l]?
  let d ← da[l + 1]?
  let nd ← modRow nd (l + 1) (loop B (fun i => loop o (fun j => loop n1 (fun p r => do
    let x ← d[i * n1 + p]?
    md r (i * o * n1 + j * n1 + p) (fun z => z * x)))))
  let a ← nd[l + 1]?
  modRow nd l (gemm false false (B * o) n0 n1 1 a 0 n1 w 0 n0 0 0 n0)

/-- `evaluate_gradient_batch`, multilayer_perceptron.cpp:204-287. -/
def MLP.evaluateGradientBatch (ex : K → K) (M : MLP K) (input : List K) (B : ℕ) :
    Option (List K × List K × MLP K) := do
  let o ← M.shape.getLast?
  let nv ← resizeAll M.shape B M.nodeValues
  let da ← resizeAll M.shape B M.nodeActDerivs
  let nd ← resizeAll M.shape (B * o) M.nodeDerivs
  let nv ← copyIn input nv
  let s ← loop (M.shape.length - 2) (bLayerG ex M B) (nv, da)
  let nv ← bFinalLayer M B s.1
  let w ← M.weights.getLast?
  let nd ← modRow nd (nd.length - 2) (bCopyWeights w B)
  let nd ← loop (M.shape.length - 2) (fun k => bBackLayer M B s.2 (M.shape.length - 3 - k)) nd
  let out ← nv.getLast?
  let jac ← nd[0]?
  pure (out, jac, { M with nodeValues := nv, nodeDerivs := nd, nodeActDerivs := s.2 })

end Verif.MLP
