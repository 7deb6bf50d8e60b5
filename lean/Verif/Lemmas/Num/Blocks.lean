import Verif.Lemmas.Num.Rel
import Mathlib.Tactic.NormNum

/-!
# Families of runs: BLAS, splines, polynomials, readout network
-/

namespace Verif.Num
open Filter

section ops
variable {ι : Type} {l : Filter ι} {K F : Type} [Field F] {A : ι → Arith K} {V : (ι → K) → F → Prop} {D : F → Prop}
  (hS : Sound A V D)
include hS

theorem Sound.add' {a b : ι → K} {x y : F} (h : V a x) (h' : V b y) : V (fun n => letI := A n; a n + b n) (x + y) := hS.add h h'
theorem Sound.sub' {a b : ι → K} {x y : F} (h : V a x) (h' : V b y) : V (fun n => letI := A n; a n - b n) (x - y) := hS.sub h h'
theorem Sound.mul' {a b : ι → K} {x y : F} (h : V a x) (h' : V b y) : V (fun n => letI := A n; a n * b n) (x * y) := hS.mul h h'
theorem Sound.neg' {a : ι → K} {x : F} (h : V a x) : V (fun n => letI := A n; - a n) (-x) := hS.neg h
theorem Sound.div' {a b : ι → K} {x y : F} (h : V a x) (h' : V b y) (hd : D y) : V (fun n => letI := A n; a n / b n) (x / y) := hS.div h h' hd
theorem Sound.zero' : V (fun n => letI := A n; (0 : K)) 0 := by have := hS.lit 0; rwa [Rat.cast_zero] at this
theorem Sound.one' : V (fun n => letI := A n; (1 : K)) 1 := by have := hS.lit 1; rwa [Rat.cast_one] at this

theorem RL.ad {xs : ι → List K} {ys : List F} (h : RL V xs ys) {f : ι → K} {y : F} (hf : V f y) (i : ℕ) :
    RO l (RL V) (fun n => letI := A n; Verif.ad (xs n) i (f n)) (Verif.ad ys i y) :=
  RL.md (f := fun n x => (A n).add x (f n)) (g := fun x => x + y) h (fun _ _ hab => hS.add hab hf) i

theorem RL.resize {xs : ι → List K} {ys : List F} (h : RL V xs ys) (k : ℕ) :
    RL V (fun n => letI := A n; Verif.resize (xs n) k) (Verif.resize ys k) := by
  simp only [Verif.resize, h.length]
  exact (h.take k).append (RL.replicate hS.zero' _)

theorem RL.zeros (k : ℕ) : RL V (fun n => letI := A n; List.replicate k (0 : K)) (List.replicate k 0) := RL.replicate hS.zero' k

end ops

/-- A value built by arithmetic operations. -/
syntax "val1" : tactic
macro_rules | `(tactic| val1) => `(tactic| exact Sound.one' (by assumption))
macro_rules | `(tactic| val1) => `(tactic| exact Sound.zero' (by assumption))
macro_rules | `(tactic| val1) => `(tactic| with_reducible refine Sound.div' (by assumption) ?_ ?_ ?_)
macro_rules | `(tactic| val1) => `(tactic| with_reducible refine Sound.neg' (by assumption) ?_)
macro_rules | `(tactic| val1) => `(tactic| with_reducible refine Sound.mul' (by assumption) ?_ ?_)
macro_rules | `(tactic| val1) => `(tactic| with_reducible refine Sound.sub' (by assumption) ?_ ?_)
macro_rules | `(tactic| val1) => `(tactic| with_reducible refine Sound.add' (by assumption) ?_ ?_)
macro_rules | `(tactic| val1) => `(tactic| assumption)

/-- One step of a comparison. -/
syntax "rel1" : tactic
macro_rules | `(tactic| rel1) => `(tactic| val1)
macro_rules | `(tactic| rel1) => `(tactic| with_reducible refine RL.zeros (by assumption) _)
macro_rules | `(tactic| rel1) => `(tactic| with_reducible refine RL.resize (by assumption) ?_ _)
macro_rules | `(tactic| rel1) => `(tactic| with_reducible refine RL.set ?_ ?_ _)
macro_rules | `(tactic| rel1) => `(tactic| with_reducible refine RO.loop ?_ ?_)
macro_rules | `(tactic| rel1) => `(tactic| with_reducible refine RO.pure ?_)
macro_rules | `(tactic| rel1) => `(tactic| (with_reducible refine RO.bind (RO.loop ?_ (by assumption)) ?_))
macro_rules | `(tactic| rel1) => `(tactic| with_reducible refine RL.ad (by assumption) ?_ ?_ _)
macro_rules | `(tactic| rel1) => `(tactic| with_reducible refine RL.md ?_ ?_ _)
macro_rules | `(tactic| rel1) => `(tactic| with_reducible refine RL.wr ?_ ?_ _)
macro_rules | `(tactic| rel1) => `(tactic| with_reducible refine RP.mk ?_ ?_)
macro_rules | `(tactic| rel1) => `(tactic| with_reducible refine RO.bind (RL.ad (by assumption) (by assumption) ?_ _) ?_)
macro_rules | `(tactic| rel1) => `(tactic| with_reducible refine RO.bind (RL.md (by assumption) ?_ _) ?_)
macro_rules | `(tactic| rel1) => `(tactic| with_reducible refine RO.bind (RL.wr (by assumption) ?_ _) ?_)
macro_rules | `(tactic| rel1) => `(tactic| with_reducible refine RO.bind (RL.get (by assumption) _) ?_)
macro_rules | `(tactic| rel1) => `(tactic| with_reducible refine RO.bindConst ?_)
macro_rules | `(tactic| rel1) => `(tactic| with_reducible intro _)

/-- Compare two programs of the same form. -/
macro "rel" : tactic => `(tactic| repeat' rel1)

variable {ι : Type} {l : Filter ι} {K F : Type} [Field F] {A : ι → Arith K} {V : (ι → K) → F → Prop} {D : F → Prop}

/-! ## BLAS -/

theorem pairs_rel {k : ℕ} {f : ι → ℕ → Option (K × K)} {g : ℕ → Option F}
    (hf : ∀ i, RO l (fun p y => ∃ q : F × F, RP V V p q ∧ y = q.1 * q.2) (fun n => f n i) (g i)) :
    RO l (fun ps y => ∃ qs : List (F × F), RL (RP V V) ps qs ∧ y = (qs.map fun q => q.1 * q.2).sum)
      (fun n => MACE.pushLoop k (f n) []) (sumO k g) := by
  induction k with
  | zero => exact RO.some ⟨[], RL.nil, by simp⟩
  | succ k ih =>
    refine RO.bind ih fun ps y h => ?_
    obtain ⟨qs, h1, h2⟩ := h
    refine RO.bind (hf k) fun p z h => ?_
    obtain ⟨q, h3, h4⟩ := h
    exact RO.pure ⟨qs ++ [q], h1.append (RL.single h3), by simp [h2, h4]⟩

theorem dotO_rel (hS : Sound A V D) {t : List ℕ} {k : ℕ} {f : ι → ℕ → Option (K × K)} {g : ℕ → Option F}
    (hf : ∀ i, RO l (fun p y => ∃ q : F × F, RP V V p q ∧ y = q.1 * q.2) (fun n => f n i) (g i)) :
    RO l V (fun n => dotO (A := A n) t k none (f n)) (sumO k g) := by
  have := RO.map (S := V) (f := fun n => (A n).dot t none) (g := id) (pairs_rel (k := k) hf)
    (by rintro a b ⟨qs, h1, rfl⟩; exact hS.dot t h1)
  simpa [dotO] using this

theorem dotAcc_rel (hS : Sound A V D) {t : List ℕ} {k : ℕ} {z : ι → K} {z' : F} (hz : V z z') {f : ι → ℕ → Option (K × K)} {g : ℕ → Option F}
    (hf : ∀ i, RO l (fun p y => ∃ q : F × F, RP V V p q ∧ y = q.1 * q.2) (fun n => f n i) (g i)) :
    RO l (fun a y => V a (z' + y)) (fun n => dotO (A := A n) t k (some (z n)) (f n)) (sumO k g) := by
  have := RO.map (S := fun a y => V a (z' + y)) (f := fun n => (A n).dot t (some (z n))) (g := id) (pairs_rel (k := k) hf)
    (by rintro a b ⟨qs, h1, rfl⟩; exact hS.dotAcc t hz h1)
  simpa [dotO] using this

theorem prod_rel {a b : ι → List K} {a' b' : List F} (ha : RL V a a') (hb : RL V b b') (i j : ℕ) :
    RO l (fun p y => ∃ q : F × F, RP V V p q ∧ y = q.1 * q.2) (fun n => do
      let x ← (a n)[i]?
      let y ← (b n)[j]?
      pure (x, y)) (do
      let x ← a'[i]?
      let y ← b'[j]?
      pure (x * y)) :=
  RO.bind (ha.get i) fun x x' hx => RO.bind (hb.get j) fun y y' hy => RO.pure ⟨(x', y'), RP.mk hx hy, rfl⟩

theorem RL.wrMd {xs : ι → List K} {ys : List F} (h : RL V xs ys) {f : ι → K} {g : F → F} (i : ℕ) (hf : ∀ z, ys[i]? = some z → V f (g z)) :
    RO l (RL V) (fun n => Verif.wr (xs n) i (f n)) (Verif.md ys i g) := by
  intro b hb
  unfold Verif.md at hb
  split at hb
  · cases hb
  · rename_i x hx
    cases hb
    refine ⟨_, Eventually.of_forall fun n => ?_, h.set (hf x hx) i⟩
    exact wr_eq _ (by rw [h.length]; exact (List.getElem?_eq_some_iff.mp hx).1)

theorem gemm_rel (hS : Sound A V D) {ta tb : Bool} {m n' k aoff lda boff ldb coff ldc : ℕ} {a b c : ι → List K} {a' b' c' : List F}
    (ha : RL V a a') (hb : RL V b b') (hc : RL V c c') :
    RO l (RL V) (fun n => gemm (A := A n) ta tb m n' k (a n) aoff lda (b n) boff ldb coff ldc (c n))
      (Blas.gemm ta tb m n' k 1 a' aoff lda b' boff ldb 0 coff ldc c') := by
  unfold gemm Blas.gemm
  refine RO.loop (fun i c c' hc => RO.loop (fun j c c' hc => ?_) hc) hc
  refine RO.bind (dotO_rel hS fun p => prod_rel ha hb _ _) fun s s' hs => ?_
  exact RL.wrMd hc _ fun z _ => by simpa using hs

theorem gemv_rel (hS : Sound A V D) {tr : Bool} {m n' lda xoff yoff : ℕ} {a x y : ι → List K} {a' x' y' : List F}
    (ha : RL V a a') (hx : RL V x x') (hy : RL V y y') :
    RO l (RL V) (fun n => gemv (A := A n) tr m n' (a n) lda (x n) xoff false yoff (y n))
      (Blas.gemv tr m n' 1 a' lda x' xoff 0 yoff y') := by
  unfold gemv Blas.gemv
  refine RO.loop (fun i c c' hc => ?_) hy
  have e : ∀ n, (if false = true then (c n)[yoff + i]?.map some else some (none : Option K)) = some none := fun _ => rfl
  simp only [e, Option.bind_eq_bind, Option.bind_some]
  refine RO.bind (dotO_rel hS fun p => prod_rel ha hx _ _) fun s s' hs => ?_
  exact RL.wrMd hc _ fun z _ => by simpa using hs

theorem gemvAcc_rel (hS : Sound A V D) {tr : Bool} {m n' lda xoff yoff : ℕ} {a x y : ι → List K} {a' x' y' : List F}
    (ha : RL V a a') (hx : RL V x x') (hy : RL V y y') :
    RO l (RL V) (fun n => gemv (A := A n) tr m n' (a n) lda (x n) xoff true yoff (y n))
      (Blas.gemv tr m n' 1 a' lda x' xoff 1 yoff y') := by
  unfold gemv Blas.gemv
  refine RO.loop (fun i c c' hc => ?_) hy
  have e : ∀ b : List F, ∀ s : F, md b (yoff + i) (fun z => 1 * s + 1 * z) = b[yoff + i]?.bind fun z => wr b (yoff + i) (z + s) := by
    intro b s
    unfold md
    cases h : b[yoff + i]? with
    | none => rfl
    | some z =>
      rw [Option.bind_some, wr_eq _ (List.getElem?_eq_some_iff.mp h).1]
      simp [add_comm]
  have e2 : ∀ p : Option F, (p.bind fun s => md c' (yoff + i) (fun z => 1 * s + 1 * z)) =
      c'[yoff + i]?.bind fun z => p.bind fun s => wr c' (yoff + i) (z + s) := by
    intro p
    cases p with
    | none => cases c'[yoff + i]? <;> rfl
    | some s => exact e c' s
  refine (?_ : RO l (RL V) _ (Option.bind _ _))
  rw [e2]
  have e3 : ∀ n, (if true = true then (c n)[yoff + i]?.map some else some none) = (c n)[yoff + i]?.map some := fun _ => rfl
  simp only [e3]
  refine RO.bind (R := fun a y => ∃ u, a = (fun n => some (u n)) ∧ V u y) ?_ ?_
  · have := RO.map (S := fun a y => ∃ u, a = (fun n => some (u n)) ∧ V u y) (f := fun _ => some) (g := id) (hc.get (l := l) (yoff + i))
      (fun a b h => ⟨a, rfl, h⟩)
    simpa using this
  · rintro a z ⟨u, rfl, hu⟩
    exact RO.bind (dotAcc_rel hS hu fun p => prod_rel ha hx _ _) fun s s' hs => RL.wr hc hs _

/-! ## Polynomials -/

theorem initForward_rel {x : ι → List K} {x' : List F} {nv : ℕ} {v : ι → List K} {v' : List F} (hx : RL V x x') (hv : RL V v v') :
    RO l (RL V) (fun n => initForward nv (x n) (v n)) (Poly.initForward nv x' v') := by
  unfold initForward Poly.initForward
  rel

theorem forwardPass_rel (hS : Sound A V D) {e : List (ℕ × ℕ)} {nv : ℕ} {v : ι → List K} {v' : List F} (hv : RL V v v') :
    RO l (RL V) (fun n => forwardPass (A := A n) nv e (v n)) (Poly.forwardPass nv e v') := by
  unfold forwardPass Poly.forwardPass
  rel

theorem ddot_rel (hS : Sound A V D) {k : ℕ} {a b : ι → List K} {a' b' : List F} (ha : RL V a a') (hb : RL V b b') :
    RO l V (fun n => ddot (A := A n) k (a n) (b n)) (Poly.ddot k a' b') := by
  unfold ddot Poly.ddot
  exact dotO_rel hS fun p => prod_rel ha hb _ _

theorem dcopy1_rel {k : ℕ} {a b : ι → List K} {a' b' : List F} (ha : RL V a a') (hb : RL V b b') :
    RO l (RL V) (fun n => dcopy1 k (a n) (b n)) (Poly.dcopy k a' b') := by
  unfold dcopy1 Poly.dcopy
  rel

theorem backwardPass_rel (hS : Sound A V D) {e : List (ℕ × ℕ)} {nv : ℕ} {v w : ι → List K} {v' w' : List F} (hv : RL V v v') (hw : RL V w w') :
    RO l (RL V) (fun n => backwardPass (A := A n) nv e (v n) (w n)) (Poly.backwardPass nv e v' w') := by
  unfold backwardPass Poly.backwardPass
  rel

theorem extractGradient_rel (hS : Sound A V D) {nv : ℕ} {w : ι → List K} {w' : List F} (hw : RL V w w') :
    RO l (RL V) (fun n => extractGradient (A := A n) nv (w n)) (Poly.extractGradient nv w') := by
  unfold extractGradient Poly.extractGradient
  rel

/-- Related polynomial objects. -/
structure RPoly (V : (ι → K) → F → Prop) (p : ι → Poly.Poly K) (p' : Poly.Poly F) : Prop where
  numVariables : ∀ n, (p n).numVariables = p'.numVariables
  edges : ∀ n, (p n).edges = p'.edges
  nodeCoefficients : RL V (fun n => (p n).nodeCoefficients) p'.nodeCoefficients
  nodeValues : RL V (fun n => (p n).nodeValues) p'.nodeValues
  nodeAdjoints : RL V (fun n => (p n).nodeAdjoints) p'.nodeAdjoints

theorem polyGradient_rel (hS : Sound A V D) {p : ι → Poly.Poly K} {p' : Poly.Poly F} (hp : RPoly V p p') {x : ι → List K} {x' : List F}
    (hx : RL V x x') :
    RO l (RP V (RP (RL V) (RPoly V))) (fun n => polyGradient (A := A n) (p n) (x n)) (p'.evaluateGradient x') := by
  unfold polyGradient Poly.Poly.evaluateGradient
  simp only [hp.numVariables, hp.edges, hp.nodeCoefficients.length]
  refine RO.bind (initForward_rel hx hp.nodeValues) fun v v' hv => ?_
  refine RO.bind (forwardPass_rel hS hv) fun v v' hv => ?_
  refine RO.bind (ddot_rel hS hp.nodeCoefficients hv) fun f f' hf => ?_
  refine RO.bind (dcopy1_rel hp.nodeCoefficients hp.nodeAdjoints) fun w w' hw => ?_
  refine RO.bind (backwardPass_rel hS hv hw) fun w w' hw => ?_
  refine RO.bind (extractGradient_rel hS hw) fun g g' hg => ?_
  exact RO.pure (RP.mk hf (RP.mk hg ⟨fun _ => rfl, fun _ => rfl, hp.nodeCoefficients, hv, hw⟩))

/-! ## The readout network -/

/-- Related network objects. -/
structure RMLP (V : (ι → K) → F → Prop) (p : ι → MLP.MLP K) (p' : MLP.MLP F) : Prop where
  shape : ∀ n, (p n).shape = p'.shape
  weights : RL (RL V) (fun n => (p n).weights) p'.weights
  scale : V (fun n => (p n).scale) p'.scale
  nodeValues : RL (RL V) (fun n => (p n).nodeValues) p'.nodeValues
  nodeDerivs : RL (RL V) (fun n => (p n).nodeDerivs) p'.nodeDerivs
  nodeActDerivs : RL (RL V) (fun n => (p n).nodeActDerivs) p'.nodeActDerivs

/-- The exponential of the exact run, as the network uses it. -/
structure RExp (A : ι → Arith K) (V : (ι → K) → F → Prop) (D : F → Prop) (ex : F → F) : Prop where
  exp : ∀ a x, V a x → V (fun n => (A n).exp (a n)) (ex x)
  sig : ∀ x, D (1 + ex (-x))

theorem sigmoid_rel (hS : Sound A V D) {ex : F → F} (he : RExp A V D ex) {x : ι → K} {x' : F} (hx : V x x') :
    V (fun n => letI := A n; 1 / (1 + (A n).exp (-(x n)))) (1 / (1 + ex (-x'))) :=
  hS.div' hS.one' (hS.add' hS.one' (he.exp _ _ (hS.neg' hx))) (he.sig _)

theorem act'_rel (hS : Sound A V D) {ex : F → F} (he : RExp A V D ex) {c x : ι → K} {c' x' : F} (hc : V c c') (hx : V x x') :
    V (fun n => act' (A := A n) (c n) (x n)) (MLP.act' ex c' x') :=
  hS.mul' (hS.mul' hc hx) (sigmoid_rel hS he hx)

theorem actD_rel (hS : Sound A V D) {ex : F → F} (he : RExp A V D ex) {c x : ι → K} {c' x' : F} (hc : V c c') (hx : V x x') :
    V (fun n => actD (A := A n) (c n) (x n)) (MLP.actD ex c' x') := by
  have := sigmoid_rel hS he hx
  exact hS.add' (hS.mul' hc this) (hS.mul' (hS.mul' (hS.mul' hc hx) this) (hS.sub' hS.one' this))

theorem resizeAll_rel (hS : Sound A V D) {shape : List ℕ} {f : ℕ} {b : ι → List (List K)} {b' : List (List F)} (hb : RL (RL V) b b') :
    RO l (RL (RL V)) (fun n => resizeAll (A := A n) shape f (b n)) (MLP.resizeAll shape f b') := by
  unfold resizeAll MLP.resizeAll
  refine RO.loop (fun i b b' hb => ?_) hb
  refine RO.bindConst fun k => ?_
  exact RO.modRow hb fun r r' hr => RO.some (hr.resize hS _)

theorem copyIn_rel {x : ι → List K} {x' : List F} (hx : RL V x x') {b : ι → List (List K)} {b' : List (List F)} (hb : RL (RL V) b b') :
    RO l (RL (RL V)) (fun n => copyIn (x n) (b n)) (MLP.copyIn x' b') := by
  unfold copyIn MLP.copyIn
  refine RO.modRow hb fun r r' hr => ?_
  simp only [hx.length, hr.length]
  exact RO.ite (RO.some (hx.append (hr.drop _))) RO.none

section mlp
variable {M : ι → MLP.MLP K} {M' : MLP.MLP F}

theorem layerProduct_rel (hS : Sound A V D) (hM : RMLP V M M') {k : ℕ} {b : ι → List (List K)} {b' : List (List F)} (hb : RL (RL V) b b') :
    RO l (RL (RL V)) (fun n => layerProduct (A := A n) (M n) k (b n)) (MLP.layerProduct M' k b') := by
  unfold layerProduct MLP.layerProduct
  simp only [hM.shape]
  refine RO.bindConst fun n1 => RO.bindConst fun n0 => RO.bind (hM.weights.get _) fun w w' hw => RO.bind (hb.get _) fun x x' hx => ?_
  exact RO.modRow hb fun r r' hr => gemv_rel hS hw hx hr

theorem finalLayer_rel (hS : Sound A V D) (hM : RMLP V M M') {b : ι → List (List K)} {b' : List (List F)} (hb : RL (RL V) b b') :
    RO l (RL (RL V)) (fun n => finalLayer (A := A n) (M n) (b n)) (MLP.finalLayer M' b') := by
  unfold finalLayer MLP.finalLayer
  simp only [hM.shape, hb.length]
  refine RO.bindConst fun n1 => RO.bindConst fun n0 => RO.bind hM.weights.getLast fun w w' hw => RO.bind (hb.get _) fun x x' hx => ?_
  exact RO.modRow hb fun r r' hr => gemv_rel hS hw hx hr

theorem layerG_rel (hS : Sound A V D) {ex : F → F} (he : RExp A V D ex) (hM : RMLP V M M') {k : ℕ} {b : ι → List (List K) × List (List K)}
    {b' : List (List F) × List (List F)} (hb : RP (RL (RL V)) (RL (RL V)) b b') :
    RO l (RP (RL (RL V)) (RL (RL V))) (fun n => layerG (A := A n) (M n) k (b n)) (MLP.layerG ex M' k b') := by
  unfold layerG MLP.layerG
  simp only [hM.shape]
  refine RO.bind (layerProduct_rel hS hM hb.fst) fun nv nv' hnv => RO.bindConst fun n1 => ?_
  refine RO.bind (hnv.get _) fun y y' hy => RO.bind (hb.snd.get _) fun d d' hd => ?_
  refine RO.bind (R := RP (RL V) (RL V)) (RO.loop (fun i q q' hq => ?_) (RP.mk hy hd)) fun q q' hq => ?_
  · refine RO.bind (hq.fst.get _) fun x x' hx => RO.bind (hq.fst.wr (act'_rel hS he hM.scale hx) _) fun y y' hy => ?_
    exact RO.bind (hq.snd.wr (actD_rel hS he hM.scale hx) _) fun d d' hd => RO.pure (RP.mk hy hd)
  · exact RO.pure (RP.mk (hnv.set hq.fst _) (hb.snd.set hq.snd _))

theorem backLayer_rel (hS : Sound A V D) (hM : RMLP V M M') {k : ℕ} {d b : ι → List (List K)} {d' b' : List (List F)} (hd : RL (RL V) d d')
    (hb : RL (RL V) b b') :
    RO l (RL (RL V)) (fun n => backLayer (A := A n) (M n) (d n) k (b n)) (MLP.backLayer M' d' k b') := by
  unfold backLayer MLP.backLayer
  simp only [hM.shape]
  refine RO.bindConst fun o => RO.bindConst fun n1 => RO.bindConst fun n0 => RO.bind (hM.weights.get _) fun w w' hw => ?_
  refine RO.bind (hd.get _) fun d d' hd => RO.bind (RO.modRow hb fun r r' hr => ?_) fun nd nd' hnd => ?_
  · rel
  · exact RO.bind (hnd.get _) fun a a' ha => RO.modRow hnd fun r r' hr => gemm_rel hS ha hw hr

theorem mlpGradient_rel (hS : Sound A V D) {ex : F → F} (he : RExp A V D ex) (hM : RMLP V M M') {x : ι → List K} {x' : List F}
    (hx : RL V x x') :
    RO l (RP (RL V) (RP (RL V) (RMLP V))) (fun n => mlpGradient (A := A n) (M n) (x n)) (M'.evaluateGradient ex x') := by
  unfold mlpGradient MLP.MLP.evaluateGradient
  simp only [hM.shape]
  refine RO.bindConst fun o => RO.bind (resizeAll_rel hS hM.nodeValues) fun nv nv' hnv => ?_
  refine RO.bind (resizeAll_rel hS hM.nodeActDerivs) fun da da' hda => RO.bind (resizeAll_rel hS hM.nodeDerivs) fun nd nd' hnd => ?_
  refine RO.bind (copyIn_rel hx hnv) fun nv nv' hnv => ?_
  refine RO.bind (RO.loop (fun k q q' hq => layerG_rel hS he hM hq) (RP.mk hnv hda)) fun s s' hs => ?_
  refine RO.bind (finalLayer_rel hS hM hs.fst) fun nv nv' hnv => RO.bind hM.weights.getLast fun w w' hw => ?_
  simp only [hnd.length]
  refine RO.bind (RO.modRow hnd fun _ _ _ => RO.some hw) fun nd nd' hnd => ?_
  refine RO.bind (RO.loop (fun k q q' hq => backLayer_rel hS hM hs.snd hq) hnd) fun nd nd' hnd => ?_
  refine RO.bind hnv.getLast fun out out' hout => RO.bind (hnd.get _) fun j j' hj => ?_
  exact RO.pure (RP.mk hout (RP.mk hj ⟨fun _ => rfl, hM.weights, hM.scale, hnv, hnd, hs.snd⟩))

end mlp

end Verif.Num
