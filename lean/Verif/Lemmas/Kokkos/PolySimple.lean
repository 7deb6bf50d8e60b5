import Verif.Lemmas.Kokkos.Polynomial

/-! # The direct evaluators of `MultivariatePolynomialKokkos` -/

namespace Verif.Kokkos
open Verif.Par Verif.Par.Prog Verif.Poly Verif.Spec

variable {K : Type} [Field K] {monos : List (List ℕ)} {w : ℕ} {x : List K} {X : ℕ → K} {i : ℕ} {m : List ℕ}

theorem Rows.entry {v : View ℤ} (hv : Rows v monos w (-1)) (hm : monos[i]? = some m) {j : ℕ} (hj : j < w) :
    v.get [i, j] = some (match m[j]? with | some a => (a : ℤ) | none => -1) := by
  have hi : i < monos.length := by
    by_contra hc
    rw [List.getElem?_eq_none (by omega)] at hm
    cases hm
  rw [hv.get i hi j hj, hm]
  rfl

theorem atInt_nat {α : Type} (x : List α) (a : ℕ) : atInt x (a : ℤ) = x[a]? := by
  unfold atInt
  rw [if_pos (by omega), Int.toNat_natCast]

theorem factors_spec {v : View ℤ} (hv : Rows v monos w (-1)) (hm : monos[i]? = some m) (hw : m.length ≤ w) (hx : ∀ a ∈ m, x[a]? = some (X a))
    (n j : ℕ) (y : K) (hj : j + n = w) (hj' : j ≤ m.length) : factors v x i n j y = some (y * monomial X (m.drop j)) := by
  induction n generalizing j y with
  | zero =>
    unfold factors
    rw [List.drop_eq_nil_of_le (by omega), monomial_nil, mul_one]
  | succ n ih =>
    unfold factors
    rw [hv.entry hm (by omega)]
    simp only [Option.bind_eq_bind, Option.bind_some]
    by_cases h : j < m.length
    · rw [List.getElem?_eq_getElem h]
      simp only
      rw [if_neg (by omega), atInt_nat, hx _ (List.getElem_mem h), Option.bind_some, ih (j + 1) _ (by omega) (by omega),
        List.drop_eq_getElem_cons h, monomial_cons, mul_assoc]
    · rw [List.getElem?_eq_none (by omega)]
      simp only
      rw [if_pos trivial, List.drop_eq_nil_of_le (by omega), monomial_nil, mul_one]

theorem monoValueK_spec {P : PolyK K} (hv : Rows P.monomials monos w (-1)) (hm : monos[i]? = some m) (hw : m.length ≤ w) (hne : m ≠ [])
    (hx : ∀ a ∈ m, x[a]? = some (X a)) : P.monoValue x i = some (monomial X m) := by
  have h0 : 0 < m.length := List.length_pos_iff.mpr hne
  unfold PolyK.monoValue
  rw [hv.entry hm (by omega)]
  simp only [Option.bind_eq_bind, Option.bind_some]
  rw [List.getElem?_eq_getElem h0]
  simp only
  have he : P.monomials.extent 1 = w := by rw [View.extent, hv.ext]; rfl
  rw [atInt_nat, hx _ (List.getElem_mem h0), Option.bind_some, he, factors_spec hv hm hw hx (w - 1) 1 _ (by omega) (by omega), ← monomial_cons,
    ← List.drop_eq_getElem_cons h0, List.drop_zero]

theorem valueK_spec {P : PolyK K} (hv : Rows P.monomials monos w (-1)) (hw : ∀ m ∈ monos, m.length ≤ w) (hne : ∀ m ∈ monos, m ≠ [])
    (hlen : P.coefficients.length = monos.length) (hx : ∀ m ∈ monos, ∀ a ∈ m, x[a]? = some (X a)) (L : Launcher K) :
    Pair.reduceTo L (P.valueK x) = some (polynomial P.coefficients monos X) := by
  unfold PolyK.valueK polynomial
  rw [Pair.reduceTo_eq L (x := fun i => (P.coefficients[i]?.getD 0) * ((monos[i]?.map (monomial X)).getD 0)) (fun i hi E => ?_),
    zip_map_sum _ _ hlen, hlen]
  have hi' : i < monos.length := by omega
  have e1 : monos[i]? = some monos[i] := List.getElem?_eq_getElem hi'
  have hmem := List.getElem_mem hi'
  refine Ret.opt (a := (monomial X monos[i], P.coefficients[i])) ?_ ?_
  · rw [monoValueK_spec hv e1 (hw _ hmem) (hne _ hmem) (hx _ hmem), List.getElem?_eq_getElem hi]
    rfl
  · rw [e1, List.getElem?_eq_getElem hi]
    exact Ret.ret _

/-! ## Gradient -/

theorem derivs_spec {v : View ℤ} (hv : Rows v monos w (-1)) (hm : monos[i]? = some m) (hw : m.length ≤ w) (hx : ∀ a ∈ m, x[a]? = some (X a))
    (j n k : ℕ) (y : K) (hk : k + n = w) (hk' : k ≤ m.length) :
    derivs v x i j n k y = some (y * monomial X (if j < k then m.drop k else (m.drop k).eraseIdx (j - k))) := by
  induction n generalizing k y with
  | zero =>
    unfold derivs
    rw [List.drop_eq_nil_of_le (by omega)]
    simp
  | succ n ih =>
    unfold derivs
    rw [hv.entry hm (by omega)]
    simp only [Option.bind_eq_bind, Option.bind_some]
    by_cases h : k < m.length
    · rw [List.getElem?_eq_getElem h]
      simp only
      rw [if_neg (by omega), List.drop_eq_getElem_cons h]
      by_cases e : j = k
      · subst e
        rw [if_pos rfl, ih (j + 1) y (by omega) (by omega), if_pos (by omega), if_neg (by omega), Nat.sub_self]
        rfl
      · rw [if_neg e, atInt_nat, hx _ (List.getElem_mem h), Option.bind_some, ih (k + 1) _ (by omega) (by omega)]
        by_cases hjk : j < k
        · rw [if_pos hjk, if_pos (by omega), monomial_cons, mul_assoc]
        · rw [if_neg hjk, if_neg (by omega), show j - k = (j - (k + 1)) + 1 by omega, List.eraseIdx_cons_succ, monomial_cons, mul_assoc]
    · rw [List.getElem?_eq_none (by omega)]
      simp only
      rw [if_pos trivial, List.drop_eq_nil_of_le (by omega)]
      simp

theorem gradLoop_confined {P : PolyK K} (hv : Rows P.monomials monos w (-1)) (hm : monos[i]? = some m) (N n j : ℕ) (hj : j + n = w) :
    Confined (P.gradLoop x i (fun _ => [N]) n j) {c | c.2 ∈ m} ∅ ∅ := by
  induction n generalizing j with
  | zero => trivial
  | succ n ih =>
    unfold PolyK.gradLoop
    rw [hv.entry hm (by omega)]
    refine Confined.opt (fun a ha => Confined.ite (fun _ => trivial) (fun hne => Confined.opt (fun q _ => Confined.opt (fun u hu => ?_))))
    have hmem : u ∈ m := by
      rw [← Option.some.inj ha] at hu hne
      cases hg : m[j]? with
      | none => rw [hg] at hne; exact absurd rfl hne
      | some b =>
        rw [hg] at hu
        simp only at hu
        rw [if_pos (by omega), Int.toNat_natCast] at hu
        rw [← Option.some.inj hu]
        exact List.mem_of_getElem? hg
    refine Confined.seq ?_ (ih (j + 1) (by omega))
    refine Confined.opt (fun p hp => ?_)
    obtain ⟨-, rfl⟩ := flat_one_some hp
    exact ⟨Or.inl hmem, fun _ => ⟨hmem, trivial⟩⟩

/-- What monomial `m` with coefficient `c` adds to entry `a` of the gradient, from factor `j` on. -/
def share (X : ℕ → K) (c : K) (m : List ℕ) (j a : ℕ) : K :=
  ∑ k ∈ Finset.range (m.length - j), if m[j + k]? = some a then c * monomial X (m.eraseIdx (j + k)) else 0

theorem share_end (c : K) {j : ℕ} (h : m.length ≤ j) (a : ℕ) : share X c m j a = 0 := by
  unfold share
  rw [Nat.sub_eq_zero_of_le h]
  rfl

theorem share_step (c : K) {j : ℕ} (h : j < m.length) (a : ℕ) :
    share X c m j a = (if m[j] = a then c * monomial X (m.eraseIdx j) else 0) + share X c m (j + 1) a := by
  unfold share
  rw [show m.length - j = (m.length - (j + 1)) + 1 by omega, Finset.sum_range_succ', add_comm]
  simp only [Nat.add_zero, List.getElem?_eq_getElem h, Option.some.injEq]
  congr 1
  refine Finset.sum_congr rfl (fun k _ => ?_)
  rw [show j + (k + 1) = j + 1 + k by omega]

theorem run_plus {N a : ℕ} (ha : a < N) (c : K) (G : ℕ → K) (q : Prog Unit K) :
    run (seq (plus (fun _ => [N]) () [a] c) q) (fun _ => tab N G) = run q (fun _ => tab N (fun b => G b + if a = b then c else 0)) := by
  unfold seq plus upd
  rw [flat_one ha]
  simp only [opt, Prog.bind, run]
  rw [getElem?_tab_lt ha, Option.bind_some]
  unfold putAt modAt
  rw [getElem?_tab_lt ha, Option.bind_some]
  congr 1
  funext u
  cases u
  rw [Function.update_self, eq_tab_iff]
  refine ⟨by simp, fun b hb => ?_⟩
  rw [List.getElem?_set]
  by_cases e : a = b
  · subst e; simp [ha]
  · rw [if_neg e, if_neg e, getElem?_tab_lt hb, add_zero]

theorem gradLoop_run {P : PolyK K} (hv : Rows P.monomials monos w (-1)) (hm : monos[i]? = some m) (hw : m.length ≤ w)
    (hx : ∀ a ∈ m, x[a]? = some (X a)) {c : K} (hc : P.coefficients[i]? = some c) {N : ℕ} (hN : ∀ a ∈ m, a < N) (n j : ℕ) (G : ℕ → K)
    (hj : j + n = w) (hj' : j ≤ m.length) :
    run (P.gradLoop x i (fun _ => [N]) n j) (fun _ => tab N G) = some ([], fun _ => tab N (fun a => G a + share X c m j a)) := by
  induction n generalizing j G with
  | zero =>
    unfold PolyK.gradLoop
    simp only [run]
    congr 2
    funext u
    exact tab_congr (fun a _ => by rw [share_end c (by omega), add_zero])
  | succ n ih =>
    unfold PolyK.gradLoop
    rw [hv.entry hm (by omega)]
    simp only [opt]
    have he : P.monomials.extent 1 = w := by rw [View.extent, hv.ext]; rfl
    by_cases h : j < m.length
    · rw [List.getElem?_eq_getElem h]
      simp only
      rw [if_neg (by omega), he, derivs_spec hv hm hw hx j w 0 1 (by omega) (by omega), hc, if_neg (Nat.not_lt_zero j),
        if_pos (show (0 : ℤ) ≤ ((m[j] : ℕ) : ℤ) by omega), Int.toNat_natCast]
      simp only [both, opt, Option.bind_some, Option.map_some]
      rw [run_plus (hN _ (List.getElem_mem h)), ih (j + 1) _ (by omega) (by omega)]
      congr 2
      funext u
      refine tab_congr (fun a _ => ?_)
      rw [share_step c h, Nat.sub_zero, List.drop_zero, one_mul, add_assoc]
    · rw [List.getElem?_eq_none (by omega)]
      simp only
      rw [if_pos trivial]
      simp only [run]
      congr 2
      funext u
      exact tab_congr (fun a _ => by rw [share_end c (by omega), add_zero])

theorem run_parFor_tab {N n : ℕ} {t : ℕ → Prog Unit K} {δ : ℕ → ℕ → K}
    (ht : ∀ i < n, ∀ G : ℕ → K, run (t i) (fun _ => tab N G) = some ([], fun _ => tab N (fun a => G a + δ i a))) (G : ℕ → K) :
    run (parFor n t) (fun _ => tab N G) = some ([], fun _ => tab N (fun a => G a + ∑ i ∈ Finset.range n, δ i a)) := by
  have key : ∀ k ≤ n, ∃ vs, loopV k (fun i m => run (t i) m) (fun _ => tab N G)
      = some (vs, fun _ => tab N (fun a => G a + ∑ i ∈ Finset.range k, δ i a)) := by
    intro k
    induction k with
    | zero => intro _; exact ⟨[], by simp [loopV]⟩
    | succ k ih =>
      intro hk
      obtain ⟨vs, h⟩ := ih (by omega)
      refine ⟨vs ++ [[]], ?_⟩
      rw [loopV_succ, h, Option.bind_some]
      simp only
      rw [ht k (by omega), Option.map_some]
      congr 3
      funext u
      exact tab_congr (fun a _ => by rw [Finset.sum_range_succ, add_assoc])
  obtain ⟨vs, h⟩ := key n le_rfl
  unfold parFor
  simp only [run]
  rw [h]
  rfl

theorem share_pairing (d : ℕ → K) (c : K) {N : ℕ} (hN : ∀ a ∈ m, a < N) :
    ∑ a ∈ Finset.range N, share X c m 0 a * d a = c * lbz X d m := by
  unfold share
  simp only [Finset.sum_mul, Nat.sub_zero, Nat.zero_add]
  rw [Finset.sum_comm, lbz_eq_sum, Finset.mul_sum]
  refine Finset.sum_congr rfl (fun k hk => ?_)
  have hk' := Finset.mem_range.mp hk
  rw [List.getElem?_eq_getElem hk', Finset.sum_eq_single m[k]]
  · simp only [if_true, Option.getD_some]; ring
  · intro a _ ha
    rw [if_neg (fun e => ha (Option.some.inj e).symm), zero_mul]
  · intro h
    exact absurd (Finset.mem_range.mpr (hN _ (List.getElem_mem hk'))) h

theorem gradK_run {P : PolyK K} (hv : Rows P.monomials monos w (-1)) (hw : ∀ m ∈ monos, m.length ≤ w)
    (hlen : P.coefficients.length = monos.length) (hx : ∀ m ∈ monos, ∀ a ∈ m, x[a]? = some (X a)) {N : ℕ}
    (hN : ∀ m ∈ monos, ∀ a ∈ m, a < N) :
    ∃ G, run (P.gradK x (fun _ => [N])) (fun _ => List.replicate N 0) = some ([], fun _ => tab N G) ∧
      ∀ d : ℕ → K, ∑ a ∈ Finset.range N, G a * d a = ((monos.zip P.coefficients).map (fun q => q.2 * lbz X d q.1)).sum := by
  have he : P.monomials.extent 1 = w := by rw [View.extent, hv.ext]; rfl
  have h := run_parFor_tab (N := N) (n := P.coefficients.length) (t := fun i => P.gradLoop x i (fun _ => [N]) (P.monomials.extent 1) 0)
    (δ := fun i => share X (P.coefficients[i]?.getD 0) (monos[i]?.getD []) 0) (fun i hi G => by
      have hi' : i < monos.length := by omega
      have e1 : monos[i]? = some monos[i] := List.getElem?_eq_getElem hi'
      have e2 : P.coefficients[i]? = some P.coefficients[i] := List.getElem?_eq_getElem hi
      have hmem := List.getElem_mem hi'
      rw [he, gradLoop_run hv e1 (hw _ hmem) (hx _ hmem) e2 (hN _ hmem) w 0 G (by omega) (by omega), e1, e2]
      rfl) (fun _ => 0)
  refine ⟨fun a => ∑ i ∈ Finset.range P.coefficients.length, share X (P.coefficients[i]?.getD 0) (monos[i]?.getD []) 0 a, ?_, fun d => ?_⟩
  · rw [replicate_eq_tab]
    simp only [zero_add] at h
    exact h
  · simp only [Finset.sum_mul]
    rw [Finset.sum_comm, zip_map_sum _ _ hlen, hlen]
    refine Finset.sum_congr rfl (fun i hi => ?_)
    have hi' := Finset.mem_range.mp hi
    have e1 : monos[i]? = some monos[i] := List.getElem?_eq_getElem hi'
    rw [e1]
    exact share_pairing d _ (hN _ (List.getElem_mem hi'))

/-- Monomials without common variables: no data race. -/
theorem gradK_raceFree {P : PolyK K} (hv : Rows P.monomials monos w (-1)) (hlen : P.coefficients.length = monos.length)
    (hd : monos.Pairwise List.Disjoint) (N : ℕ) : RaceFree (P.gradK x (fun _ => [N])) := by
  have he : P.monomials.extent 1 = w := by rw [View.extent, hv.ext]; rfl
  refine ⟨⟨fun i => {c | c.2 ∈ monos[i]?.getD []}, ∅, ∅, fun _ _ => Set.subset_univ _, Set.empty_subset _, Set.empty_subset _,
    fun i hi j hj hne => ?_, fun _ _ => Set.disjoint_empty _, fun _ _ => Set.disjoint_empty _, Set.disjoint_empty _, fun i hi => ?_⟩,
    fun _ => trivial⟩
  · have hi' : i < monos.length := by omega
    have hj' : j < monos.length := by omega
    simp only [List.getElem?_eq_getElem hi', List.getElem?_eq_getElem hj']
    rw [Set.disjoint_left]
    intro c h1 h2
    rcases Nat.lt_or_gt_of_ne hne with h | h
    · exact List.pairwise_iff_getElem.mp hd i j hi' hj' h h1 h2
    · exact List.pairwise_iff_getElem.mp hd j i hj' hi' h h2 h1
  · have hi' : i < monos.length := by omega
    have e1 : monos[i]? = some monos[i] := List.getElem?_eq_getElem hi'
    simp only [he, e1]
    exact gradLoop_confined hv e1 N w 0 (by omega)

end Verif.Kokkos
