import Verif.Lemmas.PolyReach

/-! # Property theorems: multivariate polynomials (C19 - C23, C57) -/

namespace Verif.Props
open Verif.Poly Verif.Spec

/-- Variable values held by an input vector. -/
def entries {K : Type} [Zero K] (x : List K) : ℕ → K := fun v => x[v]?.getD 0

section ring
variable {K : Type} [CommRing K]

/-- C19: for every call history, `evaluate` succeeds and returns the polynomial. -/
theorem C19_value (srt : List (List (List ℕ)) → List (List (List ℕ))) (hs : SortFn srt) (nv : ℕ)
    (coeffs : List K) (monos : List (List ℕ)) (hlen : coeffs.length = monos.length) (hnd : monos.Nodup)
    (hne : ∀ m ∈ monos, m ≠ []) (hr : ∀ m ∈ monos, ∀ v ∈ m, v < nv) :
    ∃ P0, Poly.mk? srt nv coeffs monos = some P0 ∧ ∀ P, Reach P0 P → ∀ x : List K, x.length = nv →
      ∃ P', P.evaluate x = some (polynomial coeffs monos (entries x), P') := by
  obtain ⟨P0, h1, h2⟩ := main_spec hs nv coeffs monos hlen hnd hne hr
  refine ⟨P0, h1, fun P hP x hx => ?_⟩
  obtain ⟨hv, l1, l2, e1, e2, e3, hsum⟩ := h2 P hP
  obtain ⟨v, _, h3⟩ := evaluate_spec hv (x := x) (X := entries x)
    (fun i hi => getElem?_getD (by omega)) l1
  exact ⟨_, by rw [h3, hsum]; rfl⟩

/-- C21: a batch returns for each of its inputs what `evaluate_gradient` returns for that input. -/
theorem C21_batch (srt : List (List (List ℕ)) → List (List (List ℕ))) (hs : SortFn srt) (nv : ℕ)
    (coeffs : List K) (monos : List (List ℕ)) (hlen : coeffs.length = monos.length) (hnd : monos.Nodup)
    (hne : ∀ m ∈ monos, m ≠ []) (hr : ∀ m ∈ monos, ∀ v ∈ m, v < nv) :
    ∃ P0, Poly.mk? srt nv coeffs monos = some P0 ∧ ∀ P, Reach P0 P → ∀ (B : ℕ) (x : List K), x.length = B * nv →
      ∃ f g P', P.evaluateBatch x B = some (f, g, P') ∧ f.length = B ∧ g.length = B * nv ∧
        ∀ j < B, ∃ fj gj P'', P.evaluateGradient ((x.drop (j * nv)).take nv) = some (fj, gj, P'') ∧
          f[j]? = some fj ∧ gj = (g.drop (j * nv)).take nv := by
  obtain ⟨P0, h1, h2⟩ := main_spec hs nv coeffs monos hlen hnd hne hr
  refine ⟨P0, h1, fun P hP B x hx => ?_⟩
  obtain ⟨hv, l1, l2, e1, e2, e3, hsum⟩ := h2 P hP
  subst e1
  obtain ⟨V, W, G, h3, h4⟩ := evaluateBatch_spec hv (x := x) (B := B)
    (X := fun j i => x[j * P.numVariables + i]?.getD 0)
    (fun j hj v hv => getElem?_getD (by rw [hx]; exact flat_lt hj hv))
  refine ⟨_, _, _, h3, by simp, by simp, fun j hj => ?_⟩
  have hslice : ∀ {L : List K} {i : ℕ}, i < P.numVariables →
      ((L.drop (j * P.numVariables)).take P.numVariables)[i]? = L[j * P.numVariables + i]? := by
    intro L i hi
    rw [List.getElem?_take_of_lt hi, List.getElem?_drop]
  obtain ⟨v, w, G', _, _, h5, h6⟩ := evaluateGradient_spec hv (x := (x.drop (j * P.numVariables)).take P.numVariables)
    (X := fun i => x[j * P.numVariables + i]?.getD 0)
    (fun i hi => by rw [hslice hi]; exact getElem?_getD (by rw [hx]; exact flat_lt hj hi)) l1 l2
  refine ⟨_, _, _, h5, getElem?_tab_lt hj, ?_⟩
  have hG := eq_of_pairing (n := P.numVariables) (G := G') (G' := G j) (fun d => by rw [h6 d, h4 j hj d])
  symm
  rw [eq_tab_iff]
  have hle : j * P.numVariables + P.numVariables ≤ B * P.numVariables := by
    calc j * P.numVariables + P.numVariables = (j + 1) * P.numVariables := by ring
      _ ≤ B * P.numVariables := Nat.mul_le_mul_right _ hj
  refine ⟨by simp; omega, fun i hi => ?_⟩
  rw [hslice hi, getElem?_tab2 hj hi, hG i hi]

/-- C22 for pairwise different monomials: all evaluators agree.  For repeated monomials see `C22_violated`. -/
theorem C22_simple_agrees_partial (srt : List (List (List ℕ)) → List (List (List ℕ))) (hs : SortFn srt) (nv : ℕ)
    (coeffs : List K) (monos : List (List ℕ)) (hlen : coeffs.length = monos.length) (hnd : monos.Nodup)
    (hne : ∀ m ∈ monos, m ≠ []) (hr : ∀ m ∈ monos, ∀ v ∈ m, v < nv) :
    ∃ P0, Poly.mk? srt nv coeffs monos = some P0 ∧ ∀ P, Reach P0 P → ∀ x : List K, x.length = nv →
      ∃ f g P' P'', P.evaluate x = some (f, P') ∧ P.evaluateGradient x = some (f, g, P'') ∧
        P.evaluateSimple x = some f ∧ P.evaluateGradientSimple x = some (f, g) := by
  obtain ⟨P0, h1, h2⟩ := main_spec hs nv coeffs monos hlen hnd hne hr
  refine ⟨P0, h1, fun P hP x hx => ?_⟩
  obtain ⟨hv, l1, l2, e1, e2, e3, hsum⟩ := h2 P hP
  subst e1 e2 e3
  have hX : ∀ i < P.numVariables, x[i]? = some (entries x i) := fun i hi => getElem?_getD (by omega)
  obtain ⟨v, _, h3⟩ := evaluate_spec hv hX l1
  obtain ⟨v', w', G, _, _, h4, h5⟩ := evaluateGradient_spec hv hX l1 l2
  obtain ⟨G', h6, h7⟩ := evaluateGradientSimple_spec hlen hne hr hX
  have h8 := evaluateSimple_spec hlen hne (fun m hm v hv => hX v (hr m hm v hv))
  have hp : nodeSum P (monomial (entries x)) = polynomial P.coefficients P.monomials (entries x) := hsum _
  have hG := eq_of_pairing (n := P.numVariables) (G := G) (G' := G') (fun d => by rw [h5 d, h7 d, hsum])
  refine ⟨_, _, _, _, h3, h4, by rw [h8, hp], ?_⟩
  rw [h6, hp]
  congr 2
  exact tab_congr (fun i hi => (hG i hi).symm)

/-- C23: the constructor terminates, and yields a product graph: variables first, every other node the product of
two strictly earlier nodes; auxiliary nodes are counted exactly. -/
theorem C23_graph (srt : List (List (List ℕ)) → List (List (List ℕ))) (hs : SortFn srt) (nv : ℕ)
    (coeffs : List K) (monos : List (List ℕ)) (hlen : coeffs.length = monos.length) (hnd : monos.Nodup)
    (hne : ∀ m ∈ monos, m ≠ []) (hr : ∀ m ∈ monos, ∀ v ∈ m, v < nv) :
    ∃ P, Poly.mk? srt nv coeffs monos = some P ∧
      P.nodes.take nv = (List.range nv).map (fun v => [v]) ∧ P.nodes.Nodup ∧ (∀ m ∈ monos, m ∈ P.nodes) ∧
      P.nodes.length = nv + P.edges.length ∧
      (∀ i < P.edges.length, ∃ e y a b, P.edges[i]? = some e ∧ P.nodes[nv + i]? = some y ∧
        e.1 < nv + i ∧ e.2 < nv + i ∧ P.nodes[e.1]? = some a ∧ P.nodes[e.2]? = some b ∧ (a ++ b).Perm y) ∧
      P.numAux = (P.nodes.filter (fun y => ¬ (y.length = 1 ∨ y ∈ monos))).length := by
  obtain ⟨P, h1, h2, h3, h4, h5, h6, h7, h8, h9, h10, h11, h12⟩ := mk?_spec hs nv coeffs monos hlen hnd hne hr
  subst h3
  refine ⟨P, h1, ?_, h9, h10, h2.len, ?_, ?_⟩
  · apply List.ext_getElem?
    intro i
    by_cases hi : i < P.numVariables
    · rw [List.getElem?_take_of_lt hi, h2.var i hi]
      simp [hi]
    · rw [List.getElem?_eq_none, List.getElem?_eq_none]
      · simp; omega
      · simp; omega
  · intro i hi
    obtain ⟨e, y, a, b, g1, g2, g3, g4, g5, g6, g7⟩ := h2.edge i hi
    exact ⟨e, y, a, b, g1, g2, g5, g6, g3, g4, g7⟩
  · exact h12

end ring

/-- C20: for every call history, `evaluate_gradient` succeeds and returns the polynomial and all its partial
derivatives. -/
theorem C20_gradient (srt : List (List (List ℕ)) → List (List (List ℕ))) (hs : SortFn srt) (nv : ℕ)
    (coeffs : List ℝ) (monos : List (List ℕ)) (hlen : coeffs.length = monos.length) (hnd : monos.Nodup)
    (hne : ∀ m ∈ monos, m ≠ []) (hr : ∀ m ∈ monos, ∀ v ∈ m, v < nv) :
    ∃ P0, Poly.mk? srt nv coeffs monos = some P0 ∧ ∀ P, Reach P0 P → ∀ x : List ℝ, x.length = nv →
      ∃ g P', P.evaluateGradient x = some (polynomial coeffs monos (entries x), g, P') ∧ g.length = nv ∧
        ∀ v (hv : v < g.length), HasDerivAt
          (fun t => polynomial coeffs monos (Function.update (entries x) v t)) g[v] (entries x v) := by
  obtain ⟨P0, h1, h2⟩ := main_spec hs nv coeffs monos hlen hnd hne hr
  refine ⟨P0, h1, fun P hP x hx => ?_⟩
  obtain ⟨hv, l1, l2, e1, e2, e3, hsum⟩ := h2 P hP
  subst e1
  obtain ⟨v', w', G, _, _, h4, h5⟩ := evaluateGradient_spec hv (x := x) (X := entries x)
    (fun i hi => getElem?_getD (by omega)) l1 l2
  refine ⟨_, _, by rw [h4, hsum]; rfl, by simp, fun v hvlt => ?_⟩
  have hvn : v < P.numVariables := by simpa using hvlt
  have hd := hasDerivAt_polynomial (x := fun t => Function.update (entries x) v t)
    (d := fun w => if w = v then 1 else 0) (t := entries x v) coeffs monos (by
      intro m _ w _
      by_cases h : w = v
      · subst h
        simpa using hasDerivAt_id' (entries x w)
      · simpa [h] using hasDerivAt_const (entries x v) (entries x w))
  have hg : (tab P.numVariables G)[v]'hvlt = G v := by
    have := getElem?_tab_lt (f := G) hvn
    rw [List.getElem?_eq_getElem hvlt] at this
    exact Option.some.inj this
  rw [hg]
  have h6 := h5 (fun w => if w = v then 1 else 0)
  rw [hsum] at h6
  simp only [Function.update_eq_self] at hd
  rw [← h6] at hd
  simpa [hvn] using hd

/-- Non-vacuity of C19–C23: a sort function exists, and `x0*x1*x1 + 2*x0` meets the hypotheses. -/
example : ∃ srt, SortFn srt ∧ ∃ monos : List (List ℕ), monos = [[0, 1, 1], [0]] ∧ monos.Nodup ∧
    (∀ m ∈ monos, m ≠ []) ∧ (∀ m ∈ monos, ∀ v ∈ m, v < 2) ∧
    polynomial [(1 : ℤ), 2] monos (entries [3, 5]) = 81 := by
  refine ⟨fun l => l.mergeSort (fun a b => a.length ≤ b.length), fun l => ⟨List.mergeSort_perm _ _, ?_⟩,
    _, rfl, by decide, by decide, by decide, by decide⟩
  have := List.pairwise_mergeSort (le := fun a b : List (List ℕ) => decide (a.length ≤ b.length))
    (by intro a b c; simp; omega) (by intro a b; simp; omega) l
  exact this.imp (by simp)

/-- C22 is violated for repeated monomials: for `x0 + x0` the constructor drops the second term, so `evaluate`
returns `1` at `x0 = 1` while `evaluate_simple` returns `2`. -/
theorem C22_violated (srt : List (List (List ℕ)) → List (List (List ℕ))) :
    ∃ P P' : Poly ℤ, Poly.mk? srt 1 [1, 1] [[0], [0]] = some P ∧ P.evaluate [1] = some (1, P') ∧
      P.evaluateSimple [1] = some 2 :=
  ⟨_, _, rfl, rfl, rfl⟩

/-- C57 is violated: after a batch of size zero the value buffer is empty, and the next `evaluate` leaves it. -/
theorem C57_violated (srt : List (List (List ℕ)) → List (List (List ℕ))) :
    ∃ P P' : Poly ℤ, Poly.mk? srt 1 [1] [[0]] = some P ∧ P.evaluateBatch [] 0 = some ([], [], P') ∧
      P.evaluate [1] ≠ none ∧ P'.evaluate [1] = none :=
  ⟨_, _, rfl, rfl, fun h => (nomatch (show some _ = none from h)), rfl⟩

/-- C57, what holds: after an empty batch, further batches are still correct (they resize the buffers). -/
theorem C57_batch_after_empty_partial {K : Type} [CommRing K] (srt : List (List (List ℕ)) → List (List (List ℕ)))
    (hs : SortFn srt) (nv : ℕ) (coeffs : List K) (monos : List (List ℕ)) (hlen : coeffs.length = monos.length)
    (hnd : monos.Nodup) (hne : ∀ m ∈ monos, m ≠ []) (hr : ∀ m ∈ monos, ∀ v ∈ m, v < nv) :
    ∃ P0, Poly.mk? srt nv coeffs monos = some P0 ∧ ∀ P, Reach P0 P →
      ∃ P1, P.evaluateBatch [] 0 = some ([], [], P1) ∧ ∀ (B : ℕ) (x : List K), x.length = B * nv →
        ∃ g P2, P1.evaluateBatch x B
          = some (tab B (fun j => polynomial coeffs monos (fun v => entries x (j * nv + v))), g, P2) := by
  obtain ⟨P0, h1, h2⟩ := main_spec hs nv coeffs monos hlen hnd hne hr
  refine ⟨P0, h1, fun P hP => ?_⟩
  obtain ⟨hv, l1, l2, e1, e2, e3, hsum⟩ := h2 P hP
  subst e1
  obtain ⟨V, W, G, h3, _⟩ := evaluateBatch_spec hv (x := []) (B := 0) (X := fun _ _ => 0) (by simp)
  have z1 : tab 0 (fun _ : ℕ => nodeSum P (monomial fun _ => 0)) = [] := rfl
  have z2 : tab2 0 P.numVariables (fun j v => G j v) = [] := by simp [tab2, tab]
  rw [z1, z2] at h3
  refine ⟨_, h3, fun B x hx => ?_⟩
  obtain ⟨V', W', G', h4, _⟩ := evaluateBatch_spec
    (hv.like (tab2 P.nodes.length 0 V) (tab2 P.nodes.length 0 W)) (x := x) (B := B)
    (X := fun j i => entries x (j * P.numVariables + i))
    (fun j hj v hv => getElem?_getD (by rw [hx]; exact flat_lt hj hv))
  have h5 : tab B (fun j => nodeSum P (monomial (fun i => entries x (j * P.numVariables + i))))
      = tab B (fun j => polynomial coeffs monos (fun v => entries x (j * P.numVariables + v))) :=
    tab_congr (fun j _ => hsum _)
  rw [← h5]
  exact ⟨_, _, h4⟩

end Verif.Props
