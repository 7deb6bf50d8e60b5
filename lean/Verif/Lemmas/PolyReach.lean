import Verif.Lemmas.PolyBatch

/-! # Helper lemmas: states reached by call histories (C19–C22) -/

namespace Verif.Poly
open Verif.Spec

variable {K : Type} [CommRing K]

theorem initForward_len {nv : ℕ} {x vals v : List K} (h : initForward nv x vals = some v) : ∀ i < nv, i < x.length := by
  intro i hi
  obtain ⟨t, t', h1⟩ := loop_some_imp h i hi
  obtain ⟨a, h2, _⟩ := Option.bind_eq_some_iff.mp h1
  exact (List.getElem?_eq_some_iff.mp h2).1

theorem bInitForward_len {nv n B : ℕ} {x vals v : List K} (h : bInitForward nv n B x vals = some v) :
    ∀ j < B, ∀ i < nv, j * nv + i < x.length := by
  intro j hj i hi
  obtain ⟨t, t', h1⟩ := loop_some_imp h i hi
  obtain ⟨u, u', h2⟩ := loop_some_imp h1 j hj
  obtain ⟨a, h3, _⟩ := Option.bind_eq_some_iff.mp h2
  exact (List.getElem?_eq_some_iff.mp h3).1

theorem getElem?_getD {x : List K} {i : ℕ} (h : i < x.length) : x[i]? = some (x[i]?.getD 0) := by
  simp [h]

/-- What all reachable states share. -/
def Like (P0 P : Poly K) : Prop :=
  ∃ v w, P = { P0 with nodeValues := v, nodeAdjoints := w } ∧ P0.nodes.length ≤ v.length ∧ P0.nodes.length ≤ w.length

theorem Valid.like {P0 : Poly K} (h : Valid P0) (v w : List K) :
    Valid { P0 with nodeValues := v, nodeAdjoints := w } := ⟨h.len, h.clen, h.var, h.edge⟩

theorem reach_like {P0 : Poly K} (hP : Valid P0) (h1 : P0.nodes.length ≤ P0.nodeValues.length)
    (h2 : P0.nodes.length ≤ P0.nodeAdjoints.length) {P : Poly K} (h : Reach P0 P) : Like P0 P := by
  induction h with
  | init => exact ⟨P0.nodeValues, P0.nodeAdjoints, rfl, h1, h2⟩
  | @evaluate P P' x f _ he ih =>
    obtain ⟨v, w, rfl, hv, hw⟩ := ih
    have hx : ∀ i < P0.numVariables, x[i]? = some (x[i]?.getD 0) := by
      intro i hi
      have he' := he
      unfold Poly.evaluate at he'
      obtain ⟨v0, h0, _⟩ := Option.bind_eq_some_iff.mp he'
      exact getElem?_getD (initForward_len h0 i hi)
    obtain ⟨v', l1, e1⟩ := evaluate_spec (hP.like v w) (X := fun i => x[i]?.getD 0) hx hv
    rw [he] at e1
    obtain ⟨_, rfl⟩ := Prod.mk.inj (Option.some.inj e1)
    exact ⟨v', w, rfl, by rw [l1]; exact hv, hw⟩
  | @evaluateGradient P P' x f g _ he ih =>
    obtain ⟨v, w, rfl, hv, hw⟩ := ih
    have hx : ∀ i < P0.numVariables, x[i]? = some (x[i]?.getD 0) := by
      intro i hi
      have he' := he
      unfold Poly.evaluateGradient at he'
      obtain ⟨v0, h0, _⟩ := Option.bind_eq_some_iff.mp he'
      exact getElem?_getD (initForward_len h0 i hi)
    obtain ⟨v', w', G, l1, l2, e1, _⟩ := evaluateGradient_spec (hP.like v w) (X := fun i => x[i]?.getD 0) hx hv hw
    rw [he] at e1
    obtain ⟨_, h3⟩ := Prod.mk.inj (Option.some.inj e1)
    obtain ⟨_, rfl⟩ := Prod.mk.inj h3
    exact ⟨v', w', rfl, by rw [l1]; exact hv, by rw [l2]; exact hw⟩
  | @evaluateBatch P P' x B f g _ hB he ih =>
    obtain ⟨v, w, rfl, hv, hw⟩ := ih
    have hx : ∀ j < B, ∀ i < P0.numVariables, x[j * P0.numVariables + i]? = some (x[j * P0.numVariables + i]?.getD 0) := by
      intro j hj i hi
      have he' := he
      unfold Poly.evaluateBatch at he'
      obtain ⟨v0, h0, _⟩ := Option.bind_eq_some_iff.mp he'
      exact getElem?_getD (bInitForward_len h0 j hj i hi)
    obtain ⟨V, W, G, e1, _⟩ := evaluateBatch_spec (hP.like v w) (B := B)
      (X := fun j i => x[j * P0.numVariables + i]?.getD 0) hx
    rw [he] at e1
    obtain ⟨_, h3⟩ := Prod.mk.inj (Option.some.inj e1)
    obtain ⟨_, rfl⟩ := Prod.mk.inj h3
    exact ⟨_, _, rfl, by rw [length_tab2]; exact Nat.le_mul_of_pos_right _ hB,
      by rw [length_tab2]; exact Nat.le_mul_of_pos_right _ hB⟩

/-- Everything the property theorems need about a constructed polynomial. -/
theorem main_spec {srt : List (List (List ℕ)) → List (List (List ℕ))} (hs : SortFn srt) (nv : ℕ)
    (coeffs : List K) (monos : List (List ℕ)) (hlen : coeffs.length = monos.length) (hnd : monos.Nodup)
    (hne : ∀ m ∈ monos, m ≠ []) (hr : ∀ m ∈ monos, ∀ v ∈ m, v < nv) :
    ∃ P0, Poly.mk? srt nv coeffs monos = some P0 ∧ ∀ P, Reach P0 P →
      Valid P ∧ P.nodes.length ≤ P.nodeValues.length ∧ P.nodes.length ≤ P.nodeAdjoints.length ∧
      P.numVariables = nv ∧ P.coefficients = coeffs ∧ P.monomials = monos ∧
      ∀ F : List ℕ → K, nodeSum P F = ((monos.zip coeffs).map (fun q => q.2 * F q.1)).sum := by
  obtain ⟨P0, h1, h2, h3, h4, h5, h6, h7, h8, _⟩ := mk?_spec hs nv coeffs monos hlen hnd hne hr
  refine ⟨P0, h1, fun P hP => ?_⟩
  obtain ⟨v, w, rfl, hv, hw⟩ := reach_like h2 h6.ge h7.ge hP
  exact ⟨h2.like v w, hv, hw, h3, h4, h5, fun F => h8 F⟩

/-- A gradient is determined by its pairings. -/
theorem eq_of_pairing {n : ℕ} {G G' : ℕ → K}
    (h : ∀ d : ℕ → K, ∑ v ∈ Finset.range n, G v * d v = ∑ v ∈ Finset.range n, G' v * d v) : ∀ v < n, G v = G' v := by
  intro v hv
  have := h (fun w => if w = v then 1 else 0)
  simpa [hv] using this

end Verif.Poly
