import Verif.Lemmas.ASE.Results
import Verif.Lemmas.MACE.Isolated
import Verif.Lemmas.MACE.Local
import Verif.Props.MACEExample

/-! # Property theorems: the ASE calculator (C38, C39, C40, C46, C47) -/

namespace Verif.Props
open Verif.ASE Verif.MACE Verif.Spec

/-- Well-formed input of `calculate`: atoms of known elements, a full neighbour list, pair vectors inside the tables. -/
structure CalcOk (f : File) (Z i j : List ℕ) (X : ℕ → ℕ → ℝ) : Prop where
  pairs : PairsOk Z.length i j
  known : Known f.atomicNumbers Z
  inside : ∀ e < i.length, InTable f (len (X e))

/-! ## C47 -/

/-- C47: for a full neighbour list ordered by the first atom, the evaluator gets the right graph: `num_neigh` counts the pairs of
each first atom, and pair `e` is in the list of atom `a` exactly if `a` is its first atom, with its second atom, vector, length and
elements. -/
theorem C47_graph (mace Z i j : List ℕ) (X : ℕ → ℕ → ℝ) (hp : PairsOk Z.length i j) (hZ : Known mace Z) (hne : i ≠ []) :
    ∃ g, arguments mace Z (pairsOf i j X) = some g ∧ (∀ a ∈ i, a < g.N) ∧ g.N ≤ Z.length ∧
      (∀ a < g.N, g.nn[a]? = some (i.count a) ∧ ∃ t, g.types[a]? = some t ∧ mace[t]? = Z[a]?) ∧
      (∀ a < g.N, ∀ e < i.length, ((g.nn.take a).sum ≤ e ∧ e < (g.nn.take (a + 1)).sum) ↔ i[e]? = some a) ∧
      ∀ e < i.length, g.idx[e]? = j[e]? ∧ g.r[e]? = some (len (X e)) ∧ (∀ c < 3, g.xyz[3 * e + c]? = some (X e c)) ∧
        ∃ (t b : ℕ), g.ntypes[e]? = some t ∧ j[e]? = some b ∧ mace[t]? = Z[b]? := by
  obtain ⟨m, hm⟩ : ∃ m, i.max? = some m := by
    cases h : i.max? with
    | none => exact absurd (List.max?_eq_none_iff.mp h) hne
    | some m => exact ⟨m, rfl⟩
  have hi := max?_le hm
  have hmlt := hp.lt m hi.1
  have hlt : ∀ a ∈ i, a < m + 1 := fun a ha => Nat.lt_succ_of_le (hi.2 a ha)
  have hel : ∀ a < Z.length, mace[elem mace Z a]? = Z[a]? := by
    intro a ha
    have h1 : Z[a]? = some (nthN Z a) := by unfold nthN; rw [List.getElem?_eq_getElem ha]; rfl
    rw [h1]
    unfold elem
    rw [List.getElem?_eq_getElem (List.idxOf_lt_length_of_mem (hZ.nth ha)), List.getElem_idxOf]
  refine ⟨_, arguments_eq hp hZ hm X, hlt, hmlt, fun a ha => ?_, fun a ha e he => ?_, fun e he => ?_⟩
  · have ha' : a < m + 1 := ha
    refine ⟨by simp [Sys.graph, sysOf, ha'], elem mace Z a, by simp [Sys.graph, sysOf, ha'], hel a (by omega)⟩
  · have := sysOf_edg (mace := mace) (Z := Z) (j := j) hp.sorted (N := m + 1) (a := a) ha he
    unfold Sys.edg at this
    rw [Finset.mem_Ico] at this
    rw [List.getElem?_eq_getElem he, Option.some_inj]
    exact this
  · have he' : e < j.length := hp.len ▸ he
    have hb : j[e] < Z.length := hp.lt _ (hp.perm.mem_iff.mpr (List.getElem_mem he'))
    have hE := sysOf_E (mace := mace) (Z := Z) (j := j) hlt
    refine ⟨rfl, ?_, fun c hc => ?_, elem mace Z j[e], j[e], ?_, List.getElem?_eq_getElem he', hel _ hb⟩
    · simp [Sys.graph, hE, he]
    · have h1 : (3 * e + c) / 3 = e := by omega
      have h2 : (3 * e + c) % 3 = c := by omega
      have h3 : 3 * e + c < i.length * 3 := by omega
      simp [Sys.graph, hE, h1, h2, h3]
    · simp [Sys.graph, sysOf, he']

/-! ## C38 -/

theorem forceColumn_sum {i j : List ℕ} {pf l : List ℝ} {N : ℕ} (h : forceColumn i j pf N = some l) : l.sum = 0 := by
  have key : ∀ {l : List ℕ} {b : List ℝ}, bincountW l pf N = some b → b.length = N →
      b = tab N (fun k => ∑ e ∈ Finset.range l.length, if nthN l e = k then nth pf e else 0) ∧ l.length = pf.length ∧
        ∀ a ∈ l, a < N := by
    intro l b hb hN
    unfold bincountW at hb
    split_ifs at hb with hl
    have hb' := Option.some.inj hb
    rw [← hb', length_tab] at hN
    have hlt : ∀ a ∈ l, a < N := by
      intro a ha
      unfold binLength at hN
      cases hm : l.max? with
      | none => rw [List.max?_eq_none_iff.mp hm] at ha; cases ha
      | some x =>
        rw [hm] at hN
        have := (max?_le hm).2 a ha
        simp only at hN
        omega
    have hpf : pf = tab l.length (nth pf) := by
      rw [eq_tab_iff]
      exact ⟨hl.symm, fun e he => by unfold nth; rw [List.getElem?_eq_getElem (hl ▸ he)]; rfl⟩
    have h2 := bincountW_eq (l := l) (g := nth pf) hlt
    rw [← hpf] at h2
    unfold bincountW at h2
    rw [if_pos hl] at h2
    exact ⟨hb'.symm.trans (Option.some.inj h2), hl, hlt⟩
  have hsum : ∀ {l : List ℕ}, (∀ a ∈ l, a < N) → l.length = pf.length →
      ∑ k ∈ Finset.range N, ∑ e ∈ Finset.range l.length, (if nthN l e = k then nth pf e else 0)
        = ∑ e ∈ Finset.range pf.length, nth pf e := by
    intro l hlt hl
    rw [Finset.sum_comm, hl]
    refine Finset.sum_congr rfl (fun e he => ?_)
    have he' : e < l.length := hl ▸ Finset.mem_range.mp he
    have : nthN l e < N := by unfold nthN; rw [List.getElem?_eq_getElem he']; exact hlt _ (List.getElem_mem he')
    rw [Finset.sum_eq_single (nthN l e)]
    · rw [if_pos rfl]
    · intro k _ hk; rw [if_neg (Ne.symm hk)]
    · intro hk; exact absurd (Finset.mem_range.mpr this) hk
  unfold forceColumn at h
  cases hj : bincountW j pf N with
  | none => rw [hj] at h; cases h
  | some bj =>
    cases hi : bincountW i pf N with
    | none => rw [hj, hi] at h; cases h
    | some bi =>
      rw [hj, hi] at h
      simp only [Option.bind_eq_bind, Option.bind_some] at h
      split_ifs at h with hN
      obtain ⟨ej, lj, bdj⟩ := key hj hN.1
      obtain ⟨ei, li, bdi⟩ := key hi hN.2
      rw [← Option.some.inj h]
      have : (tab N (fun a => bj.getD a 0 - bi.getD a 0)).sum = ∑ a ∈ Finset.range N, (bj.getD a 0 - bi.getD a 0) := rfl
      rw [this, Finset.sum_sub_distrib]
      have hg : ∀ {b : List ℝ} {g : ℕ → ℝ}, b = tab N g → ∑ a ∈ Finset.range N, b.getD a 0 = ∑ a ∈ Finset.range N, g a := by
        intro b g hb
        refine Finset.sum_congr rfl (fun a ha => ?_)
        rw [hb, List.getD_eq_getElem?_getD, getElem?_tab_lt (Finset.mem_range.mp ha)]
        rfl
      rw [hg ej, hg ei, hsum bdj lj, hsum bdi li, sub_self]

/-- C38: whenever the calculator returns, each component of the atom forces sums to zero over the atoms.
(For every model, evaluator state and neighbour list.) -/
theorem C38_ase (zbl : Option ZBLModel.ZBL) (P : Params ℝ) (Z : List ℕ) (V : ℝ) (nl : Pairs) (s : State ℝ) (r : State ℝ × Results)
    (h : calculate zbl P Z V nl s = some r) : r.2.forces.length = 3 ∧ ∀ l ∈ r.2.forces, l.length = Z.length ∧ l.sum = 0 := by
  unfold calculate at h
  simp only [Option.bind_eq_bind, Option.bind_eq_some_iff] at h
  obtain ⟨g, _, s1, _, p0, _, p1, _, p2, _, f0, h0, f1, h1, f2, h2, hr⟩ := h
  rw [← Option.some.inj hr]
  have hlen : ∀ {p l : List ℝ}, forceColumn nl.i nl.j p Z.length = some l → l.length = Z.length := by
    intro p l hl
    unfold forceColumn at hl
    simp only [Option.bind_eq_bind, Option.bind_eq_some_iff] at hl
    obtain ⟨_, _, _, _, hl⟩ := hl
    split_ifs at hl
    rw [← Option.some.inj hl, length_tab]
  refine ⟨rfl, fun l hl => ?_⟩
  simp only [List.mem_cons, List.not_mem_nil, or_false] at hl
  rcases hl with rfl | rfl | rfl
  · exact ⟨hlen h0, forceColumn_sum h0⟩
  · exact ⟨hlen h1, forceColumn_sum h1⟩
  · exact ⟨hlen h2, forceColumn_sum h2⟩

/-! ## C39, C40 -/

section
variable (f : File) (sph : ℝ → ℝ → ℝ → ℕ → ℝ) (dsph : ℝ → ℝ → ℝ → ℕ → ℕ → ℝ)
variable {srt : List (List (List ℕ)) → List (List (List ℕ))}

/-- Number of atoms up to the last one with a neighbour. -/
def covered (i : List ℕ) : ℕ := (i.max?.map (· + 1)).getD 0

/-- Atom `b` moved by `τ` in direction `c`. -/
def shifted (x : ℕ → ℕ → ℝ) (b c : ℕ) (τ : ℝ) : ℕ → ℕ → ℝ := fun a d => x a d + τ * if a = b ∧ d = c then 1 else 0

/-- Displacement `τ ε v` of a family of vectors. -/
noncomputable def strained (ε : ℕ → ℕ → ℝ) (v : ℕ → ℕ → ℝ) (τ : ℝ) : ℕ → ℕ → ℝ :=
  fun a c => v a c + τ * ∑ d ∈ Finset.range 3, ε c d * v a d

theorem covered_eq {i : List ℕ} (h : i ≠ []) : ∃ m, i.max? = some m ∧ covered i = m + 1 := by
  cases hm : i.max? with
  | none => exact absurd (List.max?_eq_none_iff.mp hm) h
  | some m => exact ⟨m, rfl, by unfold covered; rw [hm]; rfl⟩

theorem inside_calc {f : File} {Z i j : List ℕ} {X : ℕ → ℕ → ℝ} (h : CalcOk f Z i j X) {N : ℕ} (hN : ∀ a ∈ i, a < N) :
    Inside f (sysOf f.atomicNumbers Z i j N) X := by
  intro e he
  rw [sysOf_E hN] at he
  exact h.inside e he

/-- C39: `E S x` is the energy the calculator returns for positions `x` and cell shifts `S` of the pairs, whatever was computed
before.  The force it returns for atom `b` is minus the derivative of `E` in the position of `b` (pairs fixed). -/
theorem C39_ase (hf : FileOk f) (hsrt : Poly.SortFn srt) (hsph : IsSphGrad sph dsph ((f.lmax + 1) * (f.lmax + 1))) :
    ∃ P s0, load srt sph dsph f = some (P, s0) ∧ ∀ Z i j V, i ≠ [] → ∃ E : (ℕ → ℕ → ℝ) → (ℕ → ℕ → ℝ) → ℝ,
      (∀ S x, CalcOk f Z i j (vecs i j S x) → ∀ s, Hist f P s0 s →
        ∃ r, calculate f.zbl P Z V (pairsOf i j (vecs i j S x)) s = some r ∧ r.2.energy = E S x) ∧
      ∀ S x, CalcOk f Z i j (vecs i j S x) →
        ScalesNonzero f sph (sysOf f.atomicNumbers Z i j (covered i)) (vecs i j S x) → ∀ s, Hist f P s0 s →
        ∃ r, calculate f.zbl P Z V (pairsOf i j (vecs i j S x)) s = some r ∧ ∀ b < Z.length, ∀ c < 3,
          (∀ᶠ τ in nhds 0, CalcOk f Z i j (vecs i j S (shifted x b c τ))) ∧
          HasDerivAt (fun τ => E S (shifted x b c τ)) (-(nth (row r.2.forces c) b)) 0 := by
  obtain ⟨P, s0, h1, h2, h3⟩ := load_spec hf hsrt sph dsph
  refine ⟨P, s0, h1, fun Z i j V hne => ?_⟩
  obtain ⟨m, hm, hcov⟩ := covered_eq hne
  have hi := max?_le hm
  have hlt : ∀ a ∈ i, a < m + 1 := fun a ha => Nat.lt_succ_of_le (hi.2 a ha)
  refine ⟨fun S x => ∑ a ∈ Finset.range (m + 1),
    energy (netOf f) (confOf f sph (sysOf f.atomicNumbers Z i j (m + 1)) (vecs i j S x)) a, ?_, ?_⟩
  · intro S x hc s hs
    obtain ⟨s', e1, _⟩ := calculate_spec hf h2 hc.pairs hc.known hm (inside_calc hc hlt) (hs.ok hf h2 h3) V
    exact ⟨_, e1, rfl⟩
  · intro S x hc hsc s hs
    rw [hcov] at hsc
    have hX := inside_calc hc hlt
    obtain ⟨s', e1, _⟩ := calculate_spec hf h2 hc.pairs hc.known hm hX (hs.ok hf h2 h3) V
    refine ⟨_, e1, fun b hb c hc3 => ?_⟩
    have hvec : ∀ τ, vecs i j S (shifted x b c τ) = fun e d => vecs i j S x e d
        + τ * ((if nthN j e = b ∧ d = c then 1 else 0) - if nthN i e = b ∧ d = c then 1 else 0) := by
      intro τ
      funext e d
      unfold vecs shifted
      ring
    refine ⟨?_, ?_⟩
    · have := inside_open hX (fun e d => (if nthN j e = b ∧ d = c then 1 else 0) - if nthN i e = b ∧ d = c then 1 else 0)
      filter_upwards [this] with τ hτ
      refine ⟨hc.pairs, hc.known, fun e he => ?_⟩
      rw [hvec]
      exact hτ e (by rw [sysOf_E hlt]; exact he)
    · simp only [hvec]
      have := total_hasDerivAt hf (sysOf_ok hc.pairs hc.known hlt (hc.pairs.lt m hi.1)) hX hsph (hs.ok hf h2 h3)
        (fun a ha => (hsc a ha).1) (fun a ha => (hsc a ha).2)
        (fun e d => (if nthN j e = b ∧ d = c then 1 else 0) - if nthN i e = b ∧ d = c then 1 else 0)
      refine this.congr_deriv ?_
      rw [sysOf_E hlt]
      have hF : nth (row [tab Z.length (fun a => atomForce i j (forceOf f sph dsph (sysOf f.atomicNumbers Z i j (m + 1)) (vecs i j S x)) a 0),
          tab Z.length (fun a => atomForce i j (forceOf f sph dsph (sysOf f.atomicNumbers Z i j (m + 1)) (vecs i j S x)) a 1),
          tab Z.length (fun a => atomForce i j (forceOf f sph dsph (sysOf f.atomicNumbers Z i j (m + 1)) (vecs i j S x)) a 2)] c) b
          = atomForce i j (forceOf f sph dsph (sysOf f.atomicNumbers Z i j (m + 1)) (vecs i j S x)) b c := by
        have h3 : c = 0 ∨ c = 1 ∨ c = 2 := by omega
        rcases h3 with rfl | rfl | rfl <;> · unfold nth row; simp [getElem?_tab_lt hb]
      rw [hF]
      unfold atomForce
      congr 1
      refine Finset.sum_congr rfl (fun e _ => ?_)
      rw [Finset.sum_eq_single c]
      · simp
      · intro d _ hd; simp [hd]
      · intro h; exact absurd (Finset.mem_range.mpr hc3) h

/-- C40: volume times the six stress components (order xx, yy, zz, yz, xz, xy) is the derivative of the energy under every symmetric
strain `ε` of positions and cell. -/
theorem C40_ase (hf : FileOk f) (hsrt : Poly.SortFn srt) (hsph : IsSphGrad sph dsph ((f.lmax + 1) * (f.lmax + 1))) :
    ∃ P s0, load srt sph dsph f = some (P, s0) ∧ ∀ Z i j, i ≠ [] → ∃ E : (ℕ → ℕ → ℝ) → (ℕ → ℕ → ℝ) → ℝ,
      (∀ V S x, CalcOk f Z i j (vecs i j S x) → ∀ s, Hist f P s0 s →
        ∃ r, calculate f.zbl P Z V (pairsOf i j (vecs i j S x)) s = some r ∧ r.2.energy = E S x) ∧
      ∀ V, V ≠ 0 → ∀ S x, CalcOk f Z i j (vecs i j S x) →
        ScalesNonzero f sph (sysOf f.atomicNumbers Z i j (covered i)) (vecs i j S x) → ∀ s, Hist f P s0 s →
        ∃ r, ∃ xx yy zz yz xz xy : ℝ, calculate f.zbl P Z V (pairsOf i j (vecs i j S x)) s = some r ∧
          r.2.stress = [xx, yy, zz, yz, xz, xy] ∧ ∀ ε : ℕ → ℕ → ℝ, (∀ a b, ε a b = ε b a) →
          (∀ᶠ τ in nhds 0, CalcOk f Z i j (vecs i j (strained ε S τ) (strained ε x τ))) ∧
          HasDerivAt (fun τ => E (strained ε S τ) (strained ε x τ))
            (V * (ε 0 0 * xx + ε 1 1 * yy + ε 2 2 * zz + 2 * ε 1 2 * yz + 2 * ε 0 2 * xz + 2 * ε 0 1 * xy)) 0 := by
  obtain ⟨P, s0, h1, h2, h3⟩ := load_spec hf hsrt sph dsph
  refine ⟨P, s0, h1, fun Z i j hne => ?_⟩
  obtain ⟨m, hm, hcov⟩ := covered_eq hne
  have hi := max?_le hm
  have hlt : ∀ a ∈ i, a < m + 1 := fun a ha => Nat.lt_succ_of_le (hi.2 a ha)
  refine ⟨fun S x => ∑ a ∈ Finset.range (m + 1),
    energy (netOf f) (confOf f sph (sysOf f.atomicNumbers Z i j (m + 1)) (vecs i j S x)) a, ?_, ?_⟩
  · intro V S x hc s hs
    obtain ⟨s', e1, _⟩ := calculate_spec hf h2 hc.pairs hc.known hm (inside_calc hc hlt) (hs.ok hf h2 h3) V
    exact ⟨_, e1, rfl⟩
  · intro V hV S x hc hsc s hs
    rw [hcov] at hsc
    have hX := inside_calc hc hlt
    obtain ⟨s', e1, _⟩ := calculate_spec hf h2 hc.pairs hc.known hm hX (hs.ok hf h2 h3) V
    refine ⟨_, _, _, _, _, _, _, e1, rfl, fun ε hε => ?_⟩
    have hvec : ∀ τ, vecs i j (strained ε S τ) (strained ε x τ) = fun e c => vecs i j S x e c
        + τ * ∑ d ∈ Finset.range 3, ε c d * vecs i j S x e d := by
      intro τ
      funext e c
      unfold vecs strained
      simp only [Finset.sum_range_succ, Finset.sum_range_zero]
      ring
    refine ⟨?_, ?_⟩
    · have := inside_open hX (fun e c => ∑ d ∈ Finset.range 3, ε c d * vecs i j S x e d)
      filter_upwards [this] with τ hτ
      refine ⟨hc.pairs, hc.known, fun e he => ?_⟩
      rw [hvec]
      exact hτ e (by rw [sysOf_E hlt]; exact he)
    · simp only [hvec]
      have := total_hasDerivAt hf (sysOf_ok hc.pairs hc.known hlt (hc.pairs.lt m hi.1)) hX hsph (hs.ok hf h2 h3)
        (fun a ha => (hsc a ha).1) (fun a ha => (hsc a ha).2) (fun e c => ∑ d ∈ Finset.range 3, ε c d * vecs i j S x e d)
      refine this.congr_deriv ?_
      rw [sysOf_E hlt]
      have l0 : (0 : ℕ) < 3 := by norm_num
      have l1 : (1 : ℕ) < 3 := by norm_num
      have l2 : (2 : ℕ) < 3 := by norm_num
      simp only [l0, l1, l2, and_self, if_true]
      generalize forceOf f sph dsph (sysOf f.atomicNumbers Z i j (m + 1)) (vecs i j S x) = F
      generalize vecs i j S x = X
      simp only [Finset.sum_range_succ (n := 2), Finset.sum_range_succ (n := 1), Finset.sum_range_succ (n := 0),
        Finset.sum_range_zero, hε 1 0, hε 2 0, hε 2 1]
      field_simp
      simp only [← Finset.sum_neg_distrib, Finset.mul_sum, ← Finset.sum_add_distrib, Finset.sum_mul]
      refine Finset.sum_congr rfl (fun e _ => ?_)
      ring

/-! ## C46 -/

/-- Atoms after the last one with a neighbour do not change the energies of the others. -/
theorem extend_energy {Z i j : List ℕ} (hp : PairsOk Z.length i j) {N N' : ℕ} (hN : ∀ a ∈ i, a < N) (hle : N ≤ N')
    (X : ℕ → ℕ → ℝ) {a : ℕ} (ha : a < N) :
    energy (netOf f) (confOf f sph (sysOf f.atomicNumbers Z i j N') X) a
      = energy (netOf f) (confOf f sph (sysOf f.atomicNumbers Z i j N) X) a := by
  have hN' : ∀ a ∈ i, a < N' := fun a h => lt_of_lt_of_le (hN a h) hle
  have env : ∀ b < N, SameEnv (sysOf f.atomicNumbers Z i j N) X (sysOf f.atomicNumbers Z i j N') X b b id := by
    intro b hb
    refine ⟨?_, ?_, fun _ _ _ _ => rfl, fun _ _ => rfl⟩
    · have : b < N' := by omega
      simp [nthN, sysOf, hb, this]
    · have : (sysOf f.atomicNumbers Z i j N').edg b = (sysOf f.atomicNumbers Z i j N).edg b := by
        ext e
        by_cases he : e < i.length
        · rw [sysOf_edg hp.sorted (by omega) he, sysOf_edg hp.sorted hb he]
        · constructor
          · intro h
            have := edg_lt (T := sysOf f.atomicNumbers Z i j N') (show b < N' by omega) h
            rw [sysOf_E hN'] at this
            exact absurd this he
          · intro h
            have := edg_lt (T := sysOf f.atomicNumbers Z i j N) (show b < N from hb) h
            rw [sysOf_E hN] at this
            exact absurd this he
      rw [this]
      exact Set.bijOn_id _
  refine (env a ha).energy (show a < N from ha) (show a < N' by omega) (fun e he LM k => ?_)
  have he' : e < i.length := by
    have := edg_lt (T := sysOf f.atomicNumbers Z i j N) (show a < N from ha) he
    rwa [sysOf_E hN] at this
  have hj : e < j.length := hp.len ▸ he'
  have hb : nthN j e < N := by
    unfold nthN
    rw [List.getElem?_eq_getElem hj]
    exact hN _ (hp.perm.mem_iff.mpr (List.getElem_mem hj))
  exact (env _ hb).h1 hb (lt_of_lt_of_le hb hle) k LM

/-- C46, what the code does: the atoms up to the last one with a neighbour get their energies; the reference energies of the
isolated atoms after it are missing from the total.  Right if the last atom has a neighbour.
Missing: structures with isolated atoms at the end and structures without any neighbours, see `C46_violated`. -/
theorem C46_energies_partial (hf : FileOk f) (hsrt : Poly.SortFn srt) :
    ∃ P s0, load srt sph dsph f = some (P, s0) ∧ ∀ Z i j V X, i ≠ [] → CalcOk f Z i j X → ∀ s, Hist f P s0 s →
      ∃ r, calculate f.zbl P Z V (pairsOf i j X) s = some r ∧ r.2.energies.length = covered i ∧
        (∀ a < covered i, r.2.energies[a]?
          = some (energy (netOf f) (confOf f sph (sysOf f.atomicNumbers Z i j Z.length) X) a)) ∧
        r.2.energy + ∑ a ∈ Finset.Ico (covered i) Z.length, nth f.atomicEnergies (elem f.atomicNumbers Z a)
          = ∑ a ∈ Finset.range Z.length, energy (netOf f) (confOf f sph (sysOf f.atomicNumbers Z i j Z.length) X) a ∧
        (Z.length - 1 ∈ i → covered i = Z.length ∧
          r.2.energy = ∑ a ∈ Finset.range Z.length, energy (netOf f) (confOf f sph (sysOf f.atomicNumbers Z i j Z.length) X) a) := by
  obtain ⟨P, s0, h1, h2, h3⟩ := load_spec hf hsrt sph dsph
  refine ⟨P, s0, h1, fun Z i j V X hne hc s hs => ?_⟩
  obtain ⟨m, hm, hcov⟩ := covered_eq hne
  have hi := max?_le hm
  have hlt : ∀ a ∈ i, a < m + 1 := fun a ha => Nat.lt_succ_of_le (hi.2 a ha)
  have hle : m + 1 ≤ Z.length := hc.pairs.lt m hi.1
  obtain ⟨s', e1, _⟩ := calculate_spec hf h2 hc.pairs hc.known hm (inside_calc hc hlt) (hs.ok hf h2 h3) V
  have htot : (∑ a ∈ Finset.range (m + 1), energy (netOf f) (confOf f sph (sysOf f.atomicNumbers Z i j (m + 1)) X) a)
      + ∑ a ∈ Finset.Ico (m + 1) Z.length, nth f.atomicEnergies (elem f.atomicNumbers Z a)
      = ∑ a ∈ Finset.range Z.length, energy (netOf f) (confOf f sph (sysOf f.atomicNumbers Z i j Z.length) X) a := by
    rw [← Finset.sum_range_add_sum_Ico _ hle]
    congr 1
    · refine Finset.sum_congr rfl (fun a ha => ?_)
      exact (extend_energy f sph hc.pairs hlt hle X (Finset.mem_range.mp ha)).symm
    · refine Finset.sum_congr rfl (fun a ha => ?_)
      obtain ⟨h4, h5⟩ := Finset.mem_Ico.mp ha
      have hedg : (sysOf f.atomicNumbers Z i j Z.length).edg a = ∅ := by
        rw [Finset.eq_empty_iff_forall_notMem]
        intro e he
        have he' := edg_lt (T := sysOf f.atomicNumbers Z i j Z.length) (show a < Z.length from h5) he
        rw [sysOf_E hc.pairs.lt] at he'
        have := (sysOf_edg hc.pairs.sorted h5 he').mp he
        have h6 := hlt _ (List.getElem_mem he')
        omega
      rw [isolated_energy hf hedg]
      have : nthN (sysOf f.atomicNumbers Z i j Z.length).types a = elem f.atomicNumbers Z a := by simp [nthN, sysOf, h5]
      rw [this]
  refine ⟨_, e1, by rw [hcov, length_tab], fun a ha => ?_, by rw [hcov]; exact htot, fun hlast => ?_⟩
  · rw [hcov] at ha
    rw [getElem?_tab_lt ha, extend_energy f sph hc.pairs hlt hle X ha]
  · have h4 := hlt _ hlast
    have h5 : m + 1 = Z.length := by omega
    refine ⟨by rw [hcov, h5], ?_⟩
    rw [← htot, h5]
    simp

end

/-! ## Examples and violation of C46 -/

/-- Three atoms H, C, C; only the first two are bonded. -/
theorem exCalc : CalcOk exFile [1, 6, 6] [0, 1] [1, 0] exX where
  pairs := ⟨rfl, by decide, by decide, by decide⟩
  known := by
    intro z hz
    have : exFile.atomicNumbers = [1, 6] := rfl
    rw [this]
    revert z
    decide
  inside := fun e he => exInside e he

/-- C46 fails: a structure of H, C and an isolated C atom gets two energies, and the total lacks the third atom's energy -1029;
a structure without neighbours raises an exception. -/
theorem C46_violated : ∃ f Z i j X, FileOk f ∧ CalcOk f Z i j X ∧ CalcOk f Z [] [] X ∧ Z.length = 3 ∧
    ∀ srt, Poly.SortFn srt → ∀ sph dsph, ∃ P s0, load srt sph dsph f = some (P, s0) ∧ ∀ V s, Hist f P s0 s →
      (∃ r, calculate f.zbl P Z V (pairsOf i j X) s = some r ∧ r.2.energies.length = 2 ∧
        r.2.energy + -1029 = ∑ a ∈ Finset.range 3, energy (netOf f) (confOf f sph (sysOf f.atomicNumbers Z i j 3) X) a) ∧
      calculate f.zbl P Z V (pairsOf [] [] X) s = none := by
  refine ⟨exFile, [1, 6, 6], [0, 1], [1, 0], exX, exFile_ok, exCalc,
    ⟨⟨rfl, List.Pairwise.nil, List.Perm.refl _, fun a ha => by cases ha⟩, exCalc.known, fun e he => by cases he⟩, rfl,
    fun srt hsrt sph dsph => ?_⟩
  obtain ⟨P, s0, h1, h2⟩ := C46_energies_partial exFile sph dsph exFile_ok hsrt
  refine ⟨P, s0, h1, fun V s hs => ⟨?_, rfl⟩⟩
  obtain ⟨r, r1, r2, _, r4, _⟩ := h2 [1, 6, 6] [0, 1] [1, 0] V exX (by simp) exCalc s hs
  have hcov : covered [0, 1] = 2 := rfl
  rw [hcov] at r2 r4
  refine ⟨r, r1, r2, ?_⟩
  have hI : ∑ a ∈ Finset.Ico 2 ([1, 6, 6] : List ℕ).length, nth exFile.atomicEnergies (elem exFile.atomicNumbers [1, 6, 6] a) = -1029 := by
    have : Finset.Ico 2 ([1, 6, 6] : List ℕ).length = {2} := by decide
    rw [this, Finset.sum_singleton]
    have : elem exFile.atomicNumbers [1, 6, 6] 2 = 1 := by decide
    rw [this]
    rfl
  rw [hI] at r4
  exact r4

/-- Positions 0 and (1,0,0); no shifts for the two pairs (the shifts of other pair numbers are irrelevant). -/
def exPos : ℕ → ℕ → ℝ := fun a c => if a = 1 ∧ c = 0 then 1 else 0
def exShift : ℕ → ℕ → ℝ := fun e c => if 2 ≤ e ∧ c = 0 then -1 else 0

/-- The hypotheses of C39, C40 and of the last part of C46 hold for this bonded pair. -/
theorem exCalcRun : CalcOk exFile [1, 6] [0, 1] [1, 0] (vecs [0, 1] [1, 0] exShift exPos) ∧
    ScalesNonzero exFile exSph (sysOf exFile.atomicNumbers [1, 6] [0, 1] [1, 0] (covered [0, 1])) (vecs [0, 1] [1, 0] exShift exPos) ∧
    ([1, 6] : List ℕ).length - 1 ∈ ([0, 1] : List ℕ) := by
  have hT : sysOf exFile.atomicNumbers [1, 6] [0, 1] [1, 0] (covered [0, 1]) = exSys := rfl
  have hX : vecs [0, 1] [1, 0] exShift exPos = exX := by
    funext e c
    match e with
    | 0 => by_cases hc : c = 0 <;> simp [vecs, exX, nthN, exShift, exPos, hc]
    | 1 => by_cases hc : c = 0 <;> simp [vecs, exX, nthN, exShift, exPos, hc]
    | e + 2 => by_cases hc : c = 0 <;> simp [vecs, exX, nthN, exShift, exPos, hc]
  rw [hT, hX]
  refine ⟨⟨⟨rfl, by decide, by decide, by decide⟩, ?_, fun e he => exInside e he⟩, exScales, by decide⟩
  intro z hz
  have : exFile.atomicNumbers = [1, 6] := rfl
  rw [this]
  exact hz

end Verif.Props
