import Verif.Lemmas.Extract.Tables

/-! # The file has the shape the loaders need -/

namespace Verif.Extract
open Verif.MACE Verif.Spec

/-- What the elements of the file fulfil. -/
structure ElemOk (M : Torch) (an : List ℕ) : Prop where
  ne : an ≠ []
  lt : an.Pairwise (· < ·)
  mem : ∀ a ∈ an, a ∈ M.zs

variable {M : Torch} {cg : ℕ → ℕ → ℕ → ℕ → ℝ} {n : ℕ} {der : List ℝ → List ℝ} {an : List ℕ} {us : List (ℕ → ℕ → ℕ → Dict)}
  {u1 : ℕ → ℕ → ℕ → Dict} {inv1 : ℕ → ℕ → ℝ}

theorem gridStep_pos (h : TorchOk M cg) (hn : 2 ≤ n) : 0 < gridStep M.rcut n := by
  unfold gridStep
  refine div_pos (sub_pos.mpr h.rcut) ?_
  have : 0 < n - 1 := by omega
  exact_mod_cast this

theorem chan_get (M : Torch) {le m1 m2 : ℕ} (hle : le < M.phil.length) (h1 : m1 < 2 * nthN M.phil1 le + 1) (h2 : m2 < 2 * nthN M.phil2 le + 1) :
    (fileOf n der M an us u1 inv1).couplings[chanPos M le m1 m2]?
      = some (le, nthN M.phil1 le * nthN M.phil1 le + m1, nthN M.phil2 le * nthN M.phil2 le + m2) := by
  have e : ∀ j, ((List.range (2 * nthN M.phil1 j + 1)).flatMap (fun m1 => (List.range (2 * nthN M.phil2 j + 1)).map
      (fun m2 => (j, nthN M.phil1 j * nthN M.phil1 j + m1, nthN M.phil2 j * nthN M.phil2 j + m2)))).length
      = (2 * nthN M.phil1 j + 1) * (2 * nthN M.phil2 j + 1) := by
    intro j
    rw [List.length_flatMap]
    simp
  have hb : m1 * (2 * nthN M.phil2 le + 1) + m2 < (2 * nthN M.phil1 le + 1) * (2 * nthN M.phil2 le + 1) := by nlinarith
  have h3 := flatMap_range_get (fun j => (List.range (2 * nthN M.phil1 j + 1)).flatMap (fun m1 => (List.range (2 * nthN M.phil2 j + 1)).map
      (fun m2 => (j, nthN M.phil1 j * nthN M.phil1 j + m1, nthN M.phil2 j * nthN M.phil2 j + m2)))) hle
      (b := m1 * (2 * nthN M.phil2 le + 1) + m2) (by simp only [e]; exact hb)
  have h4 := flatMap_range_get (fun m1 => (List.range (2 * nthN M.phil2 le + 1)).map
      (fun m2 => (le, nthN M.phil1 le * nthN M.phil1 le + m1, nthN M.phil2 le * nthN M.phil2 le + m2))) h1 (b := m2) (by simpa using h2)
  simp only [e] at h3
  simp only [List.length_map, List.length_range] at h4
  rw [List.map_const', List.sum_replicate, List.length_range, smul_eq_mul] at h4
  refine h3.trans (h4.trans ?_)
  simp [h2]

theorem poly0_ok (h : TorchOk M cg) (hs : SparseOk M us) {LM : ℕ} (hLM : LM < (M.Lmax + 1) * (M.Lmax + 1)) (i k : ℕ) :
    (poly0 M an us i LM k).keys.Nodup ∧ ∀ m ∈ (poly0 M an us i LM k).keys, m ≠ [] ∧ m.length ≤ 3 ∧ ∀ v ∈ m, v < (M.lmax + 1) * (M.lmax + 1) := by
  rw [poly0_eq hLM]
  exact ⟨(polyDict_total _ _ _ (fun _ => 0)).1, fun m hm => poly_keys (U := M.U0 (Nat.sqrt LM)) (hs _ (sqrt_le_of_lt hLM)) (sqrt_split LM).1 _ hm⟩

theorem poly1_ok (h : TorchOk M cg) (hs : SparseOk1 M u1) (i k : ℕ) :
    (poly1 M an u1 i k).keys.Nodup ∧ ∀ m ∈ (poly1 M an u1 i k).keys, m ≠ [] ∧ m.length ≤ 3 ∧ ∀ v ∈ m, v < (M.lmax + 1) * (M.lmax + 1) := by
  unfold poly1
  exact ⟨(polyDict_total _ _ _ (fun _ => 0)).1,
    fun m hm => poly_keys (nm := 1) (U := fun corr _ t eta => M.U1 corr t eta) hs (by omega) _ hm⟩

theorem tbl_map {α : Type} (l : List α) (T : α → List (List ℝ)) {i : ℕ} (h : i < l.length) : tbl (l.map T) i = T l[i] := by
  simp [tbl, h]

theorem row_map {α : Type} (l : List α) (T : α → List ℝ) {i : ℕ} (h : i < l.length) : row (l.map T) i = T l[i] := by
  simp [row, h]

theorem radialTable_rows (rcut : ℝ) (n cols : ℕ) (R : ℕ → ℝ → ℝ) : (radialTable rcut n cols R).length = cols ∧
    ∀ w ∈ radialTable rcut n cols R, w.length = n := by
  unfold radialTable
  refine ⟨by simp, fun w hw => ?_⟩
  obtain ⟨c, -, rfl⟩ := List.mem_map.mp hw
  exact tableOf_length _ _ _

theorem radialTable_ders (hd : ∀ v, (der v).length = v.length) (rcut : ℝ) (n cols : ℕ) (R : ℕ → ℝ → ℝ) :
    ((radialTable rcut n cols R).map der).length = cols ∧ ∀ w ∈ (radialTable rcut n cols R).map der, w.length = n := by
  refine ⟨by rw [List.length_map]; exact (radialTable_rows _ _ _ _).1, fun w hw => ?_⟩
  obtain ⟨v, hv, rfl⟩ := List.mem_map.mp hw
  rw [hd]
  exact (radialTable_rows _ _ _ _).2 v hv

theorem pairs_pos (ha : ElemOk M an) : 0 < (elementPairs an).length := by
  rw [pair_length ha.lt]
  have := two_mul_pairList_length an.length
  have h0 : 0 < an.length := List.length_pos_iff.mpr ha.ne
  nlinarith

/-- First row of the first table has `n` entries. -/
theorem nodes_eq (ha : ElemOk M an) (rcut : ℝ) {cols : ℕ} (hc : 0 < cols) (R : ℕ × ℕ → ℕ → ℝ → ℝ) :
    (row (tbl ((elementPairs an).map (fun p => radialTable rcut n cols (R p))) 0) 0).length = n := by
  have hp := pairs_pos ha
  rw [tbl_map _ _ hp]
  have h1 := radialTable_rows rcut n cols (R (elementPairs an)[0])
  exact h1.2 _ (row_mem (h1.1.symm ▸ hc))

theorem fileOk (h : TorchOk M cg) (ha : ElemOk M an) (hn : 2 ≤ n) (hd : ∀ v, (der v).length = v.length) (hs : SparseOk M us)
    (hs1 : SparseOk1 M u1) : FileOk (fileOf n der M an us u1 inv1) where
  nT := List.length_pos_iff.mpr ha.ne
  C := h.C
  nP := List.length_pos_iff.mpr h.paths
  energies := by
    show an.length ≤ (an.map _).length
    rw [List.length_map]
  zbl z hz := by
    obtain ⟨p, hp, rfl⟩ := Option.map_eq_some_iff.mp hz
    obtain ⟨h1, h2, h3⟩ := h.zbl p hp
    exact ⟨by simpa using h1, h2, fun Z hZ => h3 Z (ha.mem Z hZ)⟩
  h := gridStep_pos h hn
  vals0 := by
    show ((elementPairs an).map _).length = _
    rw [List.length_map]; exact pair_length ha.lt
  ders0 := by
    show ((elementPairs an).map _).length = _
    rw [List.length_map]; exact pair_length ha.lt
  rows0 i hi := by
    have hi' : i < (elementPairs an).length := by rw [pair_length ha.lt]; exact hi
    have e : (fileOf n der M an us u1 inv1).nodes0 = n := nodes_eq ha M.rcut (Nat.mul_pos (by omega) h.C)
      (fun p => M.R0 (index M.zs p.1) (index M.zs p.2))
    rw [e]
    show (tbl ((elementPairs an).map _) i).length = _ ∧ (tbl ((elementPairs an).map _) i).length = _ ∧
      (∀ w ∈ tbl ((elementPairs an).map _) i, _) ∧ ∀ w ∈ tbl ((elementPairs an).map _) i, _
    rw [tbl_map _ _ hi', tbl_map _ _ hi']
    have h1 := radialTable_rows M.rcut n ((M.lmax + 1) * M.C) (M.R0 (index M.zs (elementPairs an)[i].1) (index M.zs (elementPairs an)[i].2))
    have h2 := radialTable_ders hd M.rcut n ((M.lmax + 1) * M.C) (M.R0 (index M.zs (elementPairs an)[i].1) (index M.zs (elementPairs an)[i].2))
    exact ⟨h1.1, h2.1, h1.2, h2.2⟩
  nodes0 := by
    have e : (fileOf n der M an us u1 inv1).nodes0 = n := nodes_eq ha M.rcut (Nat.mul_pos (by omega) h.C)
      (fun p => M.R0 (index M.zs p.1) (index M.zs p.2))
    omega
  vals1 := by
    show ((elementPairs an).map _).length = _
    rw [List.length_map]; exact pair_length ha.lt
  ders1 := by
    show ((elementPairs an).map _).length = _
    rw [List.length_map]; exact pair_length ha.lt
  rows1 i hi := by
    have hi' : i < (elementPairs an).length := by rw [pair_length ha.lt]; exact hi
    have e : (fileOf n der M an us u1 inv1).nodes1 = n := nodes_eq ha M.rcut (Nat.mul_pos (List.length_pos_iff.mpr h.paths) h.C)
      (fun p => M.R1 (index M.zs p.1) (index M.zs p.2))
    rw [e]
    show (tbl ((elementPairs an).map _) i).length = _ ∧ (tbl ((elementPairs an).map _) i).length = _ ∧
      (∀ w ∈ tbl ((elementPairs an).map _) i, _) ∧ ∀ w ∈ tbl ((elementPairs an).map _) i, _
    rw [tbl_map _ _ hi', tbl_map _ _ hi']
    have h1 := radialTable_rows M.rcut n (M.phil.length * M.C) (M.R1 (index M.zs (elementPairs an)[i].1) (index M.zs (elementPairs an)[i].2))
    have h2 := radialTable_ders hd M.rcut n (M.phil.length * M.C) (M.R1 (index M.zs (elementPairs an)[i].1) (index M.zs (elementPairs an)[i].2))
    exact ⟨h1.1, h2.1, h1.2, h2.2⟩
  nodes1 := by
    have e : (fileOf n der M an us u1 inv1).nodes1 = n := nodes_eq ha M.rcut (Nat.mul_pos (List.length_pos_iff.mpr h.paths) h.C)
      (fun p => M.R1 (index M.zs p.1) (index M.zs p.2))
    omega
  H0w := (flatten_length _ _ _).ge
  A0w := by
    refine ⟨by show an.length ≤ (an.map _).length; rw [List.length_map], fun w hw => ?_⟩
    obtain ⟨a, -, rfl⟩ := List.mem_map.mp hw
    refine ⟨by rw [List.length_map, List.length_range]; exact le_refl _, fun v hv => ?_⟩
    obtain ⟨l, -, rfl⟩ := List.mem_map.mp hv
    exact (flatten_length _ _ _).ge
  A0s hsc := by
    obtain ⟨d, hd0⟩ := Option.isSome_iff_exists.mp hsc
    have e1 : (fileOf n der M an us u1 inv1).A0vals
        = (elementPairs an).map (fun p => tableOf M.rcut n (fun r => Real.tanh (d (index M.zs p.1) (index M.zs p.2) r ^ 2))) := by
      unfold fileOf; simp only [hd0]
    have e2 : (fileOf n der M an us u1 inv1).A0ders
        = (elementPairs an).map (fun p => der (tableOf M.rcut n (fun r => Real.tanh (d (index M.zs p.1) (index M.zs p.2) r ^ 2)))) := by
      unfold fileOf; simp only [hd0]
    rw [e1, e2]
    refine ⟨gridStep_pos h hn, by rw [List.length_map]; exact pair_length ha.lt, by rw [List.length_map]; exact pair_length ha.lt, fun i hi => ?_⟩
    have hi' : i < (elementPairs an).length := by rw [pair_length ha.lt]; exact hi
    rw [row_map _ _ hi', row_map _ _ hi', hd, tableOf_length]
    omega
  M0w a _ LM _ k _ := by
    show ((poly0 M an us a LM k).map Prod.snd).length = ((poly0 M an us (an.length - 1) LM (M.C - 1)).map Prod.fst).length
    have := congrArg List.length (poly0_keys (M := M) (an := an) (us := us) LM a k (an.length - 1) (M.C - 1))
    simpa [Dict.keys] using this
  M0mon LM hLM := by
    have := poly0_ok (an := an) h hs hLM (an.length - 1) (M.C - 1)
    exact ⟨this.1, fun m hm => ⟨(this.2 m hm).1, (this.2 m hm).2.2⟩⟩
  H1w := by
    show _ ≤ ((List.range (M.Lmax + 1)).flatMap _).length
    rw [flatMap_range_length]
    simp only [flatten_length]
    rw [List.map_const', List.sum_replicate, List.length_range, smul_eq_mul, ← Nat.mul_assoc]
    exact le_refl _
  phil := h.phil.2
  phil1 := ⟨h.phil1.1.ge, h.phil1.2⟩
  phil2 := ⟨h.phil2.1.ge, h.phil2.2⟩
  philme := by
    refine ⟨by show ((couplingTable M).map _).length ≤ ((couplingTable M).map _).length; simp, fun o ho => ?_⟩
    obtain ⟨q, hq, rfl⟩ := List.mem_map.mp ho
    obtain ⟨le, mu, m1, m2, hle, hmu, -, -, h1, -⟩ := coupling_mem h hq
    show q.1 < (M.phil.map _).sum
    rw [h1, count_sum (n := M.lmax + 1) (fun l hl => Nat.lt_succ_of_le (h.phil.2 l hl))]
    exact lme_lt h.phil.1 (fun l hl => Nat.lt_succ_of_le (h.phil.2 l hl)) hle hmu
  philelm := by
    refine ⟨by show ((couplingTable M).map _).length ≤ ((couplingTable M).map _).length; simp, fun o ho => ?_⟩
    obtain ⟨q, hq, rfl⟩ := List.mem_map.mp ho
    obtain ⟨le, mu, m1, m2, hle, -, hm1, hm2, -, h2⟩ := coupling_mem h hq
    rw [h2, Int.toNat_natCast]
    exact (List.getElem?_eq_some_iff.mp (chan_get M hle hm1 hm2)).1
  A1w := by
    refine ⟨by show _ ≤ ((List.range (M.lmax + 1)).map _).length; simp [fileOf], fun l hl => ?_⟩
    have hl' : l < M.lmax + 1 := Nat.lt_succ_of_le hl
    show _ ≤ (row ((List.range (M.lmax + 1)).map _) l).length
    rw [row_map _ _ (by simpa using hl'), flatten_length, List.getElem_range]
    exact le_refl _
  A1s hsc := by
    obtain ⟨d, hd0⟩ := Option.isSome_iff_exists.mp hsc
    have e1 : (fileOf n der M an us u1 inv1).A1vals
        = (elementPairs an).map (fun p => tableOf M.rcut n (fun r => Real.tanh (d (index M.zs p.1) (index M.zs p.2) r ^ 2))) := by
      unfold fileOf; simp only [hd0]
    have e2 : (fileOf n der M an us u1 inv1).A1ders
        = (elementPairs an).map (fun p => der (tableOf M.rcut n (fun r => Real.tanh (d (index M.zs p.1) (index M.zs p.2) r ^ 2)))) := by
      unfold fileOf; simp only [hd0]
    rw [e1, e2]
    refine ⟨gridStep_pos h hn, by rw [List.length_map]; exact pair_length ha.lt, by rw [List.length_map]; exact pair_length ha.lt, fun i hi => ?_⟩
    have hi' : i < (elementPairs an).length := by rw [pair_length ha.lt]; exact hi
    rw [row_map _ _ hi', row_map _ _ hi', hd, tableOf_length]
    omega
  M1w a _ k _ := by
    show ((poly1 M an u1 a k).map Prod.snd).length = ((poly1 M an u1 (an.length - 1) (M.C - 1)).map Prod.fst).length
    have := congrArg List.length (poly1_keys (M := M) (an := an) (u1 := u1) a k (an.length - 1) (M.C - 1))
    simpa [Dict.keys] using this
  M1mon := by
    have := poly1_ok (an := an) h hs1 (an.length - 1) (M.C - 1)
    exact ⟨this.1, fun m hm => ⟨(this.2 m hm).1, (this.2 m hm).2.2⟩⟩
  H2wH1 := by
    refine ⟨by show an.length ≤ (an.map _).length; rw [List.length_map], fun w hw => ?_⟩
    obtain ⟨a, -, rfl⟩ := List.mem_map.mp hw
    exact (flatten_length _ _ _).ge
  H2wM1 := by show M.C * M.C ≤ ((List.range (M.C * M.C)).map _).length; simp
  ro1 := by show M.C ≤ ((List.range M.C).map _).length; simp
  ro2w1 := flatten_length _ _ _
  ro2w2 := by show ((List.range 16).map _).length = 16; simp

theorem fileOkK (h : TorchOk M cg) (hd : ∀ v, (der v).length = v.length) (hs : SparseOk M us)
    (hs1 : SparseOk1 M u1) : FileOkK (fileOf n der M an us u1 inv1) an.length where
  elements := ⟨le_refl _, by show an.length ≤ (an.map _).length; rw [List.length_map]⟩
  mono0 LM hLM m hm := ((poly0_ok (an := an) h hs hLM (an.length - 1) (M.C - 1)).2 m hm).2.1
  mono1 m hm := ((poly1_ok (an := an) h hs1 (an.length - 1) (M.C - 1)).2 m hm).2.1
  A0s hsc w hw := by
    obtain ⟨d, hd0⟩ := Option.isSome_iff_exists.mp hsc
    have e1 : (fileOf n der M an us u1 inv1).A0vals
        = (elementPairs an).map (fun p => tableOf M.rcut n (fun r => Real.tanh (d (index M.zs p.1) (index M.zs p.2) r ^ 2))) := by
      unfold fileOf; simp only [hd0]
    rw [e1] at hw ⊢
    have key : ∀ v ∈ (elementPairs an).map (fun p => tableOf M.rcut n (fun r => Real.tanh (d (index M.zs p.1) (index M.zs p.2) r ^ 2))),
        v.length = n := by
      intro v hv
      obtain ⟨p, -, rfl⟩ := List.mem_map.mp hv
      exact tableOf_length _ _ _
    rw [key w hw, key _ (row_mem (List.length_pos_of_mem hw))]
  A1s hsc w hw := by
    obtain ⟨d, hd0⟩ := Option.isSome_iff_exists.mp hsc
    have e1 : (fileOf n der M an us u1 inv1).A1vals
        = (elementPairs an).map (fun p => tableOf M.rcut n (fun r => Real.tanh (d (index M.zs p.1) (index M.zs p.2) r ^ 2))) := by
      unfold fileOf; simp only [hd0]
    rw [e1] at hw ⊢
    have key : ∀ v ∈ (elementPairs an).map (fun p => tableOf M.rcut n (fun r => Real.tanh (d (index M.zs p.1) (index M.zs p.2) r ^ 2))),
        v.length = n := by
      intro v hv
      obtain ⟨p, -, rfl⟩ := List.mem_map.mp hv
      exact tableOf_length _ _ _
    rw [key w hw, key _ (row_mem (List.length_pos_of_mem hw))]

end Verif.Extract
