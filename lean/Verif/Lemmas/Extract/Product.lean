import Verif.Lemmas.Extract.Dict

/-! # The polynomials of the file are the symmetric contractions -/

namespace Verif.Extract
open Verif.MACE Verif.Spec

theorem sparseAll_eq (nm M : ℕ) (nEta : ℕ → ℕ) (U : ℕ → ℕ → List ℕ → ℕ → ℝ) : ∃ us, sparseAll nm M nEta U = some us ∧
    ∀ corr, 1 ≤ corr → corr ≤ 3 → ∀ m < nm, ∀ eta < nEta corr, us corr m eta = denseDict M corr (fun t => U corr m t eta) := by
  obtain ⟨u1, e1, h1⟩ := sparseU_eq nm M 1 (nEta 1) (U 1)
  obtain ⟨u2, e2, h2⟩ := sparseU_eq nm M 2 (nEta 2) (U 2)
  obtain ⟨u3, e3, h3⟩ := sparseU_eq nm M 3 (nEta 3) (U 3)
  refine ⟨_, by unfold sparseAll; rw [e1, e2, e3]; rfl, fun corr hc1 hc3 m hm eta he => ?_⟩
  obtain rfl | rfl | rfl : corr = 1 ∨ corr = 2 ∨ corr = 3 := by omega
  · exact h1 m hm eta he
  · exact h2 m hm eta he
  · exact h3 m hm eta he

/-- Values and keys as a polynomial. -/
theorem polynomial_dict (d : Dict) (x : ℕ → ℝ) : polynomial (d.map Prod.snd) (d.map Prod.fst) x = d.total (monomial x) := by
  unfold polynomial Dict.total
  rw [List.zip_map', List.map_map]
  rfl

theorem polyKeys_congr {nEta : ℕ → ℕ} {K K' : ℕ → ℕ → List (List ℕ)}
    (h : ∀ corr, 1 ≤ corr → corr ≤ 3 → ∀ eta < nEta corr, K corr eta = K' corr eta) : polyKeys nEta K = polyKeys nEta K' := by
  have e : ∀ corr, 1 ≤ corr → corr ≤ 3 → ∀ ks, (List.range (nEta corr)).foldl (fun ks eta => addKeys ks (K corr eta)) ks
      = (List.range (nEta corr)).foldl (fun ks eta => addKeys ks (K' corr eta)) ks := by
    intro corr h1 h3 ks
    refine List.foldl_ext _ _ _ (fun a b hb => ?_)
    rw [h corr h1 h3 b (List.mem_range.mp hb)]
  unfold polyKeys
  simp only [List.foldl_cons, List.foldl_nil]
  rw [e 1 (by omega) (by omega), e 2 (by omega) (by omega), e 3 (by omega) (by omega)]

/-- The polynomial made of the sparse tensors. -/
theorem poly_contraction {nm M : ℕ} {nEta : ℕ → ℕ} {U : ℕ → ℕ → List ℕ → ℕ → ℝ} {us : ℕ → ℕ → ℕ → Dict}
    (hU : ∀ corr m t eta, U corr m t eta = 0 ∨ 1e-12 < |U corr m t eta|)
    (h : ∀ corr, 1 ≤ corr → corr ≤ 3 → ∀ m < nm, ∀ eta < nEta corr, us corr m eta = denseDict M corr (fun t => U corr m t eta))
    {m : ℕ} (hm : m < nm) (w : ℕ → ℕ → ℝ) (x : ℕ → ℝ) :
    (polyDict nEta (fun corr => us corr m) w).total (monomial x)
      = ∑ corr ∈ {1, 2, 3}, ∑ eta ∈ Finset.range (nEta corr), w corr eta * contraction M corr (fun t => U corr m t eta) x := by
  rw [(polyDict_total _ _ _ _).2]
  refine Finset.sum_congr rfl (fun corr hc => Finset.sum_congr rfl (fun eta he => ?_))
  have hc' : 1 ≤ corr ∧ corr ≤ 3 := by
    simp only [Finset.mem_insert, Finset.mem_singleton] at hc
    omega
  rw [h corr hc'.1 hc'.2 m hm eta (Finset.mem_range.mp he), (denseDict_total M corr (fun t => hU corr m t eta) x).2, contraction_eq]

/-- Its monomials. -/
theorem poly_keys {nm M : ℕ} {nEta : ℕ → ℕ} {U : ℕ → ℕ → List ℕ → ℕ → ℝ} {us : ℕ → ℕ → ℕ → Dict}
    (h : ∀ corr, 1 ≤ corr → corr ≤ 3 → ∀ m < nm, ∀ eta < nEta corr, us corr m eta = denseDict M corr (fun t => U corr m t eta))
    {m : ℕ} (hm : m < nm) (w : ℕ → ℕ → ℝ) {k : List ℕ} (hk : k ∈ (polyDict nEta (fun corr => us corr m) w).keys) :
    k ≠ [] ∧ k.length ≤ 3 ∧ ∀ v ∈ k, v < M := by
  rw [polyDict_keys] at hk
  obtain ⟨corr, eta, h1, h3, he, hk⟩ := mem_polyKeys hk
  rw [h corr h1 h3 m hm eta he] at hk
  obtain ⟨t, ht, hp⟩ := mem_denseDict hk
  obtain ⟨hl, hv⟩ := mem_tuples.mp ht
  have hlen := hp.length_eq
  refine ⟨fun e => ?_, by omega, fun v hvk => hv v (hp.mem_iff.mp hvk)⟩
  rw [e] at hlen
  simp at hlen
  omega

/-! ## The dictionaries of the first product -/

theorem lmKeys_mem {Lmax : ℕ} {q : ℕ × ℕ × ℕ} : q ∈ lmKeys Lmax ↔ q.2.1 ≤ Lmax ∧ q.2.2 < 2 * q.2.1 + 1 ∧ q.1 = q.2.1 * q.2.1 + q.2.2 := by
  unfold lmKeys
  simp only [List.mem_flatMap, List.mem_range, List.mem_map]
  constructor
  · rintro ⟨l, hl, mu, hmu, rfl⟩
    refine ⟨by simp only []; omega, hmu, ?_⟩
    show l * (l + 1) + mu - l = l * l + mu
    rw [Nat.mul_succ]; omega
  · rintro ⟨h1, h2, h3⟩
    refine ⟨q.2.1, by omega, q.2.2, h2, ?_⟩
    refine Prod.ext ?_ rfl
    show q.2.1 * (q.2.1 + 1) + q.2.2 - q.2.1 = q.1
    rw [h3, Nat.mul_succ]; omega

theorem sqrt_add {l mu : ℕ} (h : mu < 2 * l + 1) : Nat.sqrt (l * l + mu) = l := by
  rw [Nat.sqrt_add_eq l (by omega)]

theorem sqrt_split (lm : ℕ) : lm - Nat.sqrt lm * Nat.sqrt lm < 2 * Nat.sqrt lm + 1 ∧
    lm = Nat.sqrt lm * Nat.sqrt lm + (lm - Nat.sqrt lm * Nat.sqrt lm) := by
  have h1 := Nat.sqrt_le lm
  have h2 := Nat.sqrt_le_add lm
  omega

theorem sqrt_le_of_lt {L lm : ℕ} (h : lm < (L + 1) * (L + 1)) : Nat.sqrt lm ≤ L := Nat.lt_succ_iff.mp (Nat.sqrt_lt.mpr h)

theorem lmLookup_eq {Lmax LM : ℕ} (h : LM < (Lmax + 1) * (Lmax + 1)) :
    lmLookup Lmax LM = some (Nat.sqrt LM, LM - Nat.sqrt LM * Nat.sqrt LM) := by
  unfold lmLookup
  obtain ⟨h1, h2⟩ := sqrt_split LM
  have hmem : (LM, Nat.sqrt LM, LM - Nat.sqrt LM * Nat.sqrt LM) ∈ lmKeys Lmax := lmKeys_mem.mpr ⟨sqrt_le_of_lt h, h1, h2⟩
  cases e : (lmKeys Lmax).find? (fun q => q.1 == LM) with
  | none => exact absurd (List.find?_eq_none.mp e _ hmem) (by simp)
  | some q =>
    have h3 := lmKeys_mem.mp (List.mem_of_find?_eq_some e)
    have h4 : q.1 = LM := by simpa using List.find?_some e
    have h5 : q.2.1 = Nat.sqrt LM := by
      rw [← h4, h3.2.2, sqrt_add h3.2.1]
    refine congrArg some (Prod.ext h5 ?_)
    show q.2.2 = LM - Nat.sqrt LM * Nat.sqrt LM
    rw [← h5, ← h4, h3.2.2]
    omega

/-- What the script has after `U_sparse` for all `l`. -/
def SparseOk (M : Torch) (us : List (ℕ → ℕ → ℕ → Dict)) : Prop :=
  ∀ l ≤ M.Lmax, ∀ corr, 1 ≤ corr → corr ≤ 3 → ∀ m < 2 * l + 1, ∀ eta < M.nEta0 l corr,
    (us.getD l (fun _ _ _ => [])) corr m eta = denseDict ((M.lmax + 1) * (M.lmax + 1)) corr (fun t => M.U0 l corr m t eta)

def SparseOk1 (M : Torch) (u1 : ℕ → ℕ → ℕ → Dict) : Prop :=
  ∀ corr, 1 ≤ corr → corr ≤ 3 → ∀ m < 1, ∀ eta < M.nEta1 corr,
    u1 corr m eta = denseDict ((M.lmax + 1) * (M.lmax + 1)) corr (fun t => M.U1 corr t eta)

theorem mapM_some {α β : Type} {f : α → Option β} {g : α → β} (l : List α) (h : ∀ a ∈ l, f a = some (g a)) : l.mapM f = some (l.map g) := by
  induction l with
  | nil => rfl
  | cons a l ih =>
    rw [List.mapM_cons, h a List.mem_cons_self, ih (fun b hb => h b (List.mem_cons_of_mem _ hb))]
    rfl

theorem sparse_ok (M : Torch) : ∃ us, (List.range (M.Lmax + 1)).mapM
      (fun l => sparseAll (2 * l + 1) ((M.lmax + 1) * (M.lmax + 1)) (M.nEta0 l) (M.U0 l)) = some us ∧ SparseOk M us := by
  choose g hg hs using fun l => sparseAll_eq (2 * l + 1) ((M.lmax + 1) * (M.lmax + 1)) (M.nEta0 l) (M.U0 l)
  refine ⟨_, mapM_some _ (fun l _ => hg l), fun l hl => ?_⟩
  have e : ((List.range (M.Lmax + 1)).map g).getD l (fun _ _ _ => []) = g l := by
    rw [List.getD_eq_getElem?_getD]
    simp [Nat.lt_succ_of_le hl]
  rw [e]
  exact hs l

theorem sparse_ok1 (M : Torch) : ∃ u1, sparseAll 1 ((M.lmax + 1) * (M.lmax + 1)) M.nEta1 (fun corr _ t eta => M.U1 corr t eta) = some u1 ∧
    SparseOk1 M u1 :=
  sparseAll_eq 1 ((M.lmax + 1) * (M.lmax + 1)) M.nEta1 (fun corr _ t eta => M.U1 corr t eta)

section
variable {M : Torch} {an : List ℕ} {us : List (ℕ → ℕ → ℕ → Dict)} {u1 : ℕ → ℕ → ℕ → Dict}

theorem poly0_eq {LM : ℕ} (h : LM < (M.Lmax + 1) * (M.Lmax + 1)) (i k : ℕ) : poly0 M an us i LM k
    = polyDict (M.nEta0 (Nat.sqrt LM)) (fun corr => (us.getD (Nat.sqrt LM) (fun _ _ _ => [])) corr (LM - Nat.sqrt LM * Nat.sqrt LM))
        (fun corr eta => M.W0 (Nat.sqrt LM) corr (index M.zs (an.getD i 0)) eta k) := by
  unfold poly0
  rw [lmLookup_eq h]

theorem poly0_keys (LM i k i' k' : ℕ) : (poly0 M an us i LM k).keys = (poly0 M an us i' LM k').keys := by
  unfold poly0
  split
  · rw [polyDict_keys, polyDict_keys]
  · rfl

theorem poly1_keys (i k i' k' : ℕ) : (poly1 M an u1 i k).keys = (poly1 M an u1 i' k').keys := by
  unfold poly1
  rw [polyDict_keys, polyDict_keys]

end

end Verif.Extract
