import Verif.Lemmas.PolyCtor
import Verif.Base.Tab
import Verif.Spec.Polynomial
import Mathlib.Analysis.Calculus.Deriv.Mul
import Mathlib.Analysis.Calculus.Deriv.Add

/-! # Helper lemmas: evaluation of the polynomial graph (C19–C22) -/

namespace Verif.Poly
open Verif.Spec

variable {K : Type} [CommRing K]

/-! ## Leibniz rule on monomials -/

/-- Derivative of a monomial in the direction `d`. -/
def lbz (x d : ℕ → K) : List ℕ → K
  | [] => 0
  | v :: m => d v * monomial x m + x v * lbz x d m

@[simp] theorem monomial_nil (x : ℕ → K) : monomial x [] = 1 := rfl

@[simp] theorem monomial_cons (x : ℕ → K) (v : ℕ) (m : List ℕ) : monomial x (v :: m) = x v * monomial x m := by
  simp [monomial]

theorem monomial_append (x : ℕ → K) (a b : List ℕ) : monomial x (a ++ b) = monomial x a * monomial x b := by
  simp [monomial]

theorem monomial_perm (x : ℕ → K) {a b : List ℕ} (h : a.Perm b) : monomial x a = monomial x b :=
  (h.map x).prod_eq

theorem lbz_append (x d : ℕ → K) (a b : List ℕ) :
    lbz x d (a ++ b) = lbz x d a * monomial x b + monomial x a * lbz x d b := by
  induction a with
  | nil => simp [lbz]
  | cons v a ih =>
    simp only [List.cons_append, lbz, ih, monomial_append, monomial_cons]
    ring

theorem lbz_perm (x d : ℕ → K) {a b : List ℕ} (h : a.Perm b) : lbz x d a = lbz x d b := by
  induction h with
  | nil => rfl
  | cons v h ih => simp only [lbz, ih, monomial_perm x h]
  | swap v w l => simp only [lbz, monomial_cons]; ring
  | trans _ _ ih1 ih2 => exact ih1.trans ih2

theorem hasDerivAt_monomial {x : ℝ → ℕ → ℝ} {d : ℕ → ℝ} {t : ℝ} (m : List ℕ)
    (h : ∀ v ∈ m, HasDerivAt (fun s => x s v) (d v) t) :
    HasDerivAt (fun s => monomial (x s) m) (lbz (x t) d m) t := by
  induction m with
  | nil => simpa [lbz] using hasDerivAt_const t (1 : ℝ)
  | cons v m ih =>
    simp only [monomial_cons]
    have h1 := (h v (by simp)).mul (ih (fun w hw => h w (by simp [hw])))
    simp only [lbz]
    exact h1

/-- The value of the polynomial differentiates to the weighted sum of `lbz`. -/
theorem hasDerivAt_polynomial {x : ℝ → ℕ → ℝ} {d : ℕ → ℝ} {t : ℝ} (coeffs : List ℝ) (monos : List (List ℕ))
    (h : ∀ m ∈ monos, ∀ v ∈ m, HasDerivAt (fun s => x s v) (d v) t) :
    HasDerivAt (fun s => polynomial coeffs monos (x s))
      ((monos.zip coeffs).map (fun q => q.2 * lbz (x t) d q.1)).sum t := by
  unfold polynomial
  have hm : ∀ q ∈ monos.zip coeffs, ∀ v ∈ q.1, HasDerivAt (fun s => x s v) (d v) t :=
    fun q hq => h q.1 (List.of_mem_zip hq).1
  clear h
  generalize monos.zip coeffs = l at hm ⊢
  induction l with
  | nil => simpa using hasDerivAt_const t (0 : ℝ)
  | cons q l ih =>
    simp only [List.map_cons, List.sum_cons]
    exact ((hasDerivAt_monomial q.1 (hm q (by simp))).const_mul q.2).add (ih (fun q' hq' => hm q' (by simp [hq'])))

/-! ## Forward pass -/

/-- The node list in functional form. -/
def nodeAt (P : Poly K) (q : ℕ) : List ℕ := P.nodes[q]?.getD []

theorem nodeAt_eq {P : Poly K} {q : ℕ} {y : List ℕ} (h : P.nodes[q]? = some y) : nodeAt P q = y := by
  simp [nodeAt, h]

/-- Facts about one edge. -/
theorem edge_facts {P : Poly K} (hP : Valid P) {i : ℕ} (hi : i < P.edges.length) :
    ∃ e, P.edges[i]? = some e ∧ e.1 < P.numVariables + i ∧ e.2 < P.numVariables + i ∧
      (∀ x : ℕ → K, monomial x (nodeAt P (P.numVariables + i)) = monomial x (nodeAt P e.1) * monomial x (nodeAt P e.2)) ∧
      (∀ x d : ℕ → K, lbz x d (nodeAt P (P.numVariables + i)) =
        lbz x d (nodeAt P e.1) * monomial x (nodeAt P e.2) + monomial x (nodeAt P e.1) * lbz x d (nodeAt P e.2)) := by
  obtain ⟨e, y, a, b, h1, h2, h3, h4, h5, h6, h7⟩ := hP.edge i hi
  refine ⟨e, h1, h5, h6, ?_, ?_⟩
  · intro x
    rw [nodeAt_eq h2, nodeAt_eq h3, nodeAt_eq h4, ← monomial_append, monomial_perm x h7]
  · intro x d
    rw [nodeAt_eq h2, nodeAt_eq h3, nodeAt_eq h4, ← lbz_append, lbz_perm x d h7]

theorem forward_spec {P : Poly K} (hP : Valid P) {x : List K} {X : ℕ → K}
    (hx : ∀ v < P.numVariables, x[v]? = some (X v)) {vals : List K} (hl : P.nodes.length ≤ vals.length) :
    ∃ v, (initForward P.numVariables x vals).bind (forwardPass P.numVariables P.edges) = some v ∧
      v.length = vals.length ∧ ∀ q < P.nodes.length, v[q]? = some (monomial X (nodeAt P q)) := by
  have hlen := hP.len
  have h1 := loop_inv (n := P.numVariables) (body := fun i v => do
      let a ← x[i]?
      wr v i a)
    (fun i v => v.length = vals.length ∧ ∀ q < i, v[q]? = some (X q)) (s := vals) ⟨rfl, by simp⟩ (by
      rintro i hi v ⟨h1, h2⟩
      refine ⟨v.set i (X i), by simp [hx i hi, wr_eq _ (show i < v.length by omega)], by simp [h1], ?_⟩
      intro q hq
      rw [List.getElem?_set]
      by_cases h : i = q
      · subst h; simp; omega
      · rw [if_neg h]; exact h2 q (by omega))
  obtain ⟨v0, e0, l0, r0⟩ := h1
  have h2 := loop_inv (n := P.edges.length) (body := fun i v => do
      let e ← P.edges[i]?
      let a ← v[e.1]?
      let b ← v[e.2]?
      wr v (P.numVariables + i) (a * b))
    (fun i v => v.length = vals.length ∧ ∀ q < P.numVariables + i, v[q]? = some (monomial X (nodeAt P q)))
    (s := v0) ⟨l0, by
      intro q hq
      rw [r0 q (by omega), nodeAt_eq (hP.var q (by omega))]
      simp [monomial]⟩ (by
      rintro i hi v ⟨h1, h2⟩
      obtain ⟨e, he, e1, e2, hm, _⟩ := edge_facts hP hi
      refine ⟨_, by simp only [he, h2 e.1 e1, h2 e.2 e2, Option.bind_eq_bind, Option.bind_some]; exact wr_eq _ (by omega), by simp [h1], ?_⟩
      intro q hq
      rw [List.getElem?_set]
      by_cases h : P.numVariables + i = q
      · subst h
        rw [if_pos rfl, if_pos (by omega), hm]
      · rw [if_neg h]; exact h2 q (by omega))
  obtain ⟨v, e3, l3, r3⟩ := h2
  refine ⟨v, ?_, l3, fun q hq => r3 q (by omega)⟩
  show (loop _ _ vals).bind _ = _
  rw [e0]
  exact e3

/-! ## Sums over nodes -/

/-- The weighted node sum. -/
def nodeSum (P : Poly K) (F : List ℕ → K) : K :=
  ∑ q ∈ Finset.range P.nodes.length, (P.nodeCoefficients[q]?.getD 0) * F (nodeAt P q)

theorem ddot_spec {P : Poly K} (hP : Valid P) {X : ℕ → K} {v : List K}
    (hv : ∀ q < P.nodes.length, v[q]? = some (monomial X (nodeAt P q))) :
    ddot P.nodeCoefficients.length P.nodeCoefficients v = some (nodeSum P (monomial X)) := by
  unfold ddot nodeSum
  rw [hP.clen]
  apply sumO_eq
  intro q hq
  have : q < P.nodeCoefficients.length := by rw [hP.clen]; exact hq
  simp [hv q hq, this]

/-! ## Backward pass -/

theorem sum_update {n e : ℕ} (he : e < n) (W D : ℕ → K) (t : K) :
    ∑ q ∈ Finset.range n, Function.update W e (W e + t) q * D q = ∑ q ∈ Finset.range n, W q * D q + t * D e := by
  have hm := Finset.mem_range.mpr he
  rw [← Finset.add_sum_erase _ _ hm, ← Finset.add_sum_erase (Finset.range n) (fun q => W q * D q) hm,
    Function.update_self]
  have : ∑ q ∈ (Finset.range n).erase e, Function.update W e (W e + t) q * D q
      = ∑ q ∈ (Finset.range n).erase e, W q * D q := by
    apply Finset.sum_congr rfl
    intro q hq
    rw [Function.update_of_ne (Finset.ne_of_mem_erase hq)]
  rw [this]; ring

theorem backward_spec {P : Poly K} (hP : Valid P) {X : ℕ → K} {vals : List K}
    (hv : ∀ q < P.nodes.length, vals[q]? = some (monomial X (nodeAt P q))) {L : ℕ} (hL : P.nodes.length ≤ L) (W : ℕ → K) :
    ∃ W', backwardPass P.numVariables P.edges vals (tab L W) = some (tab L W') ∧
      ∀ d : ℕ → K, ∑ v ∈ Finset.range P.numVariables, W' v * d v
        = ∑ q ∈ Finset.range P.nodes.length, W q * lbz X d (nodeAt P q) := by
  have hlen := hP.len
  have h := loop_inv (n := P.edges.length) (body := fun k w => do
      let i := P.edges.length - 1 - k
      let e ← P.edges[i]?
      let a ← w[P.numVariables + i]?
      let v1 ← vals[e.2]?
      let w ← ad w e.1 (a * v1)
      let a ← w[P.numVariables + i]?
      let v0 ← vals[e.1]?
      ad w e.2 (a * v0))
    (fun k w => ∃ W', w = tab L W' ∧ ∀ d : ℕ → K,
      ∑ q ∈ Finset.range (P.numVariables + (P.edges.length - k)), W' q * lbz X d (nodeAt P q)
        = ∑ q ∈ Finset.range P.nodes.length, W q * lbz X d (nodeAt P q))
    (s := tab L W) ⟨W, rfl, fun d => by rw [Nat.sub_zero, hlen]⟩ (by
      rintro k hk w ⟨W', rfl, hsum⟩
      obtain ⟨i, hi⟩ : ∃ i, i = P.edges.length - 1 - k := ⟨_, rfl⟩
      obtain ⟨e, he, e1, e2, _, hd⟩ := edge_facts hP (i := i) (by omega)
      have ea : (tab L W')[P.numVariables + i]? = some (W' (P.numVariables + i)) := getElem?_tab_lt (by omega)
      let W1 := Function.update W' e.1 (W' e.1 + W' (P.numVariables + i) * monomial X (nodeAt P e.2))
      refine ⟨tab L (Function.update W1 e.2 (W1 e.2 + W1 (P.numVariables + i) * monomial X (nodeAt P e.1))), ?_, ?_⟩
      · beta_reduce
        rw [← hi]
        simp only [he, ea, hv e.1 (by omega), hv e.2 (by omega), Option.bind_eq_bind, Option.bind_some]
        rw [ad_tab _ (by omega), Option.bind_some, getElem?_tab_lt (by omega), Option.bind_some, ad_tab _ (by omega)]
      · refine ⟨_, rfl, fun d => ?_⟩
        have e3 : P.edges.length - (k + 1) = i := by omega
        have e4 : P.edges.length - k = i + 1 := by omega
        rw [← hsum d, e3, e4, ← add_assoc, Finset.sum_range_succ, hd, sum_update e2]
        simp only [W1]
        rw [sum_update e1, Function.update_of_ne (by omega)]
        ring)
  obtain ⟨w, h1, W', rfl, h2⟩ := h
  refine ⟨W', h1, fun d => ?_⟩
  rw [← h2 d, Nat.sub_self, add_zero]
  apply Finset.sum_congr rfl
  intro v hv
  rw [nodeAt_eq (hP.var v (Finset.mem_range.mp hv))]
  simp [lbz]

theorem dcopy_spec {n : ℕ} {a b : List K} (ha : n ≤ a.length) (hb : n ≤ b.length) :
    ∃ W, dcopy n a b = some (tab b.length W) ∧ ∀ q < n, W q = a[q]?.getD 0 := by
  have h := loop_inv (n := n) (body := fun i b => do
      let x ← a[i]?
      wr b i x)
    (fun i w => ∃ W, w = tab b.length W ∧ ∀ q < i, W q = a[q]?.getD 0) (s := b) ⟨_, eq_tab_getD b, by simp⟩ (by
      rintro i hi w ⟨W, rfl, hW⟩
      have : i < a.length := by omega
      refine ⟨tab b.length (Function.update W i a[i]), ?_, _, rfl, ?_⟩
      · simp only [List.getElem?_eq_getElem this, Option.bind_eq_bind, Option.bind_some]
        exact wr_tab _ (by omega)
      · intro q hq
        by_cases h : q = i
        · subst h; simp [this]
        · rw [Function.update_of_ne h, hW q (by omega)])
  obtain ⟨w, h1, W, rfl, h2⟩ := h
  exact ⟨W, h1, h2⟩

theorem extract_spec {nv L : ℕ} (hL : nv ≤ L) (W : ℕ → K) :
    extractGradient nv (tab L W) = some (tab nv W) := by
  unfold extractGradient
  have h := (Acts1.loop (L := nv) (n := nv) (body := fun i g => do
      let a ← (tab L W)[i]?
      wr g i a) (F := fun i p x => if p = i then W i else x) (fun i hi => by
        have := Acts1.wr (L := nv) hi (W i)
        refine this.of_eq (fun b _ => ?_)
        rw [getElem?_tab_lt (by omega)]; rfl)) (List.replicate nv 0) (by simp)
  rw [h]
  congr 1
  apply replicate_mapIdx_eq_tab
  intro p hp
  exact iter_eq hp (fun i _ => W i) 0

/-! ## The single evaluators -/

theorem evaluate_spec {P : Poly K} (hP : Valid P) {x : List K} {X : ℕ → K}
    (hx : ∀ v < P.numVariables, x[v]? = some (X v)) (hl : P.nodes.length ≤ P.nodeValues.length) :
    ∃ v, v.length = P.nodeValues.length ∧
      P.evaluate x = some (nodeSum P (monomial X), { P with nodeValues := v }) := by
  obtain ⟨v, h1, h2, h3⟩ := forward_spec hP hx hl
  refine ⟨v, h2, ?_⟩
  unfold Poly.evaluate
  simp only [Option.bind_eq_bind]
  cases h0 : initForward P.numVariables x P.nodeValues with
  | none => rw [h0] at h1; simp at h1
  | some v0 =>
    rw [h0, Option.bind_some] at h1
    rw [Option.bind_some, h1, Option.bind_some, ddot_spec hP h3]
    rfl

theorem evaluateGradient_spec {P : Poly K} (hP : Valid P) {x : List K} {X : ℕ → K}
    (hx : ∀ v < P.numVariables, x[v]? = some (X v)) (hl : P.nodes.length ≤ P.nodeValues.length)
    (hl' : P.nodes.length ≤ P.nodeAdjoints.length) :
    ∃ v w G, v.length = P.nodeValues.length ∧ w.length = P.nodeAdjoints.length ∧
      P.evaluateGradient x = some (nodeSum P (monomial X), tab P.numVariables G,
        { P with nodeValues := v, nodeAdjoints := w }) ∧
      ∀ d : ℕ → K, ∑ v ∈ Finset.range P.numVariables, G v * d v = nodeSum P (lbz X d) := by
  obtain ⟨v, h1, h2, h3⟩ := forward_spec hP hx hl
  obtain ⟨W, h4, h5⟩ := dcopy_spec (n := P.nodeCoefficients.length) (a := P.nodeCoefficients) (b := P.nodeAdjoints)
    le_rfl (by rw [hP.clen]; exact hl')
  obtain ⟨W', h6, h7⟩ := backward_spec hP h3 hl' W
  have hlen := hP.len
  refine ⟨v, tab P.nodeAdjoints.length W', W', h2, by simp, ?_, ?_⟩
  · unfold Poly.evaluateGradient
    simp only [Option.bind_eq_bind]
    cases h0 : initForward P.numVariables x P.nodeValues with
    | none => rw [h0] at h1; simp at h1
    | some v0 =>
      rw [h0, Option.bind_some] at h1
      rw [Option.bind_some, h1, Option.bind_some, ddot_spec hP h3, Option.bind_some, h4, Option.bind_some, h6,
        Option.bind_some, extract_spec (by omega)]
      rfl
  · intro d
    rw [h7 d]
    unfold nodeSum
    apply Finset.sum_congr rfl
    intro q hq
    rw [h5 q (by rw [hP.clen]; exact Finset.mem_range.mp hq)]

end Verif.Poly
