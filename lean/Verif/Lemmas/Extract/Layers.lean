import Verif.Lemmas.Extract.Shape
import Verif.Lemmas.MACE.Eval

/-! # The network of the file is the PyTorch network -/

namespace Verif.Extract
open Verif.MACE Verif.Spec

/-- The spline the evaluator makes of the table of a function. -/
noncomputable def splineOf (rcut : ℝ) (n : ℕ) (der : List ℝ → List ℝ) (R : ℝ → ℝ) (r : ℝ) : ℝ :=
  hermite (gridStep rcut n) (nth (tableOf rcut n R)) (nth (der (tableOf rcut n R))) r

variable {M : Torch} {cg : ℕ → ℕ → ℕ → ℕ → ℝ} {n : ℕ} {der : List ℝ → List ℝ} {an : List ℕ} {us : List (ℕ → ℕ → ℕ → Dict)}
  {u1 : ℕ → ℕ → ℕ → Dict} {inv1 : ℕ → ℕ → ℝ} {sph : ℝ → ℝ → ℝ → ℕ → ℝ} {T : Sys} {X : ℕ → ℕ → ℝ}

theorem row_radial (rcut : ℝ) (n : ℕ) (R : ℕ → ℝ → ℝ) {cols c : ℕ} (hc : c < cols) :
    row (radialTable rcut n cols R) c = tableOf rcut n (R c) := by simp [row, radialTable, hc]

theorem row_radial_der (rcut : ℝ) (n : ℕ) (R : ℕ → ℝ → ℝ) {cols c : ℕ} (hc : c < cols) :
    row ((radialTable rcut n cols R).map der) c = der (tableOf rcut n (R c)) := by simp [row, radialTable, hc]

theorem fuse (C : ℕ) (p : ℕ → ℝ) (A B : ℕ → ℕ → ℝ) (s : ℝ) (k : ℕ) :
    ∑ k' ∈ Finset.range C, p k' * (matMul C A B k' k / s)
      = ∑ j ∈ Finset.range C, (∑ k' ∈ Finset.range C, p k' * A k' j) * (B j k / s) := by
  unfold matMul
  simp only [Finset.sum_div, Finset.mul_sum, Finset.sum_mul]
  rw [Finset.sum_comm]
  refine Finset.sum_congr rfl (fun j _ => Finset.sum_congr rfl (fun k' _ => by ring))

theorem fuse1 (C : ℕ) (p : ℕ → ℝ) (A B : ℕ → ℕ → ℝ) (k : ℕ) :
    ∑ k' ∈ Finset.range C, p k' * matMul C A B k' k = ∑ j ∈ Finset.range C, (∑ k' ∈ Finset.range C, p k' * A k' j) * B j k := by
  have := fuse C p A B 1 k
  simpa using this

theorem contraction_congr {D corr : ℕ} (U : List ℕ → ℝ) {x y : ℕ → ℝ} (h : ∀ v < D, x v = y v) : contraction D corr U x = contraction D corr U y := by
  unfold contraction
  refine Finset.sum_congr rfl (fun t _ => ?_)
  rw [Finset.prod_congr rfl (fun i _ => h (t i) (t i).2)]

theorem getElem_nthN {l : List ℕ} {i : ℕ} (h : i < l.length) : l[i] = nthN l i := by simp [nthN, h]

section layers
variable (h : TorchOk M cg) (ha : ElemOk M an) (hT : SysOk (fileOf n der M an us u1 inv1) T)
include h ha hT

local notation "F" => fileOf n der M an us u1 inv1
local notation "Q" => Radials.map (splineOf M.rcut n der) (Torch.radials M)
local notation "SC" => sceneOf M an sph T X
local notation "W" => netOf (fileOf n der M an us u1 inv1)
local notation "CF" => confOf (fileOf n der M an us u1 inv1) sph T X

omit h in
theorem pair_pos_edge {i e : ℕ} (hi : i < T.N) (he : e ∈ T.edg i) {α : Type} (G : ℕ → ℕ → α) (hG : ∀ a b, G a b = G b a) :
    ((elementPairs an).map (fun p => G (index M.zs p.1) (index M.zs p.2)))[edgePair F T e]?
      = some (G ((SC).z i) ((SC).nz e)) := by
  unfold edgePair
  rw [owner_eq hi he]
  have hE : e < T.E := edg_lt hi he
  have := pair_table ha.lt (fun p => G (index M.zs p.1) (index M.zs p.2)) (hT.typ i hi) (hT.nty e hE) (fun x y => hG _ _)
  exact this

theorem R0_eq {i e : ℕ} (hi : i < T.N) (he : e ∈ T.edg i) {l k : ℕ} (hl : l ≤ M.lmax) (hk : k < M.C) :
    (CF).R0 e l k = (Q).R0 ((SC).z i) ((SC).nz e) (l * M.C + k) ((SC).len e) := by
  have hc : l * M.C + k < (M.lmax + 1) * M.C := by nlinarith
  have h1 := pair_pos_edge (sph := sph) (X := X) (n := n) (der := der) (us := us) (u1 := u1) (inv1 := inv1) ha hT hi he (fun a b => radialTable M.rcut n ((M.lmax + 1) * M.C) (M.R0 a b))
    (fun a b => by rw [h.R0])
  have h2 := pair_pos_edge (sph := sph) (X := X) (n := n) (der := der) (us := us) (u1 := u1) (inv1 := inv1) ha hT hi he (fun a b => (radialTable M.rcut n ((M.lmax + 1) * M.C) (M.R0 a b)).map der)
    (fun a b => by rw [h.R0])
  have e1 : tbl (F).vals0 (edgePair F T e) = _ := congrArg (fun o => o.getD []) h1
  have e2 : tbl (F).ders0 (edgePair F T e) = _ := congrArg (fun o => o.getD []) h2
  show hermite _ (nth (row (tbl (F).vals0 (edgePair F T e)) (l * M.C + k))) (nth (row (tbl (F).ders0 (edgePair F T e)) (l * M.C + k))) _ = _
  rw [e1, e2]
  simp only [Option.getD_some]
  rw [row_radial _ _ _ hc, row_radial_der _ _ _ hc]
  rfl

theorem R1_eq {i e : ℕ} (hi : i < T.N) (he : e ∈ T.edg i) {l k : ℕ} (hl : l < M.phil.length) (hk : k < M.C) :
    (CF).R1 e l k = (Q).R1 ((SC).z i) ((SC).nz e) (l * M.C + k) ((SC).len e) := by
  have hc : l * M.C + k < M.phil.length * M.C := by nlinarith
  have h1 := pair_pos_edge (sph := sph) (X := X) (n := n) (der := der) (us := us) (u1 := u1) (inv1 := inv1) ha hT hi he (fun a b => radialTable M.rcut n (M.phil.length * M.C) (M.R1 a b))
    (fun a b => by rw [h.R1])
  have h2 := pair_pos_edge (sph := sph) (X := X) (n := n) (der := der) (us := us) (u1 := u1) (inv1 := inv1) ha hT hi he (fun a b => (radialTable M.rcut n (M.phil.length * M.C) (M.R1 a b)).map der)
    (fun a b => by rw [h.R1])
  have e1 : tbl (F).vals1 (edgePair F T e) = _ := congrArg (fun o => o.getD []) h1
  have e2 : tbl (F).ders1 (edgePair F T e) = _ := congrArg (fun o => o.getD []) h2
  show hermite _ (nth (row (tbl (F).vals1 (edgePair F T e)) (l * M.C + k))) (nth (row (tbl (F).ders1 (edgePair F T e)) (l * M.C + k))) _ = _
  rw [e1, e2]
  simp only [Option.getD_some]
  rw [row_radial _ _ _ hc, row_radial_der _ _ _ hc]
  rfl

/-- First normalisation: together with the number folded into the weights. -/
theorem s0_eq {i : ℕ} (hi : i < T.N) : (CF).s0 i * (if M.dens0.isSome then 1 else M.avg0) = tNorm0 M Q SC i := by
  cases hd : M.dens0 with
  | none =>
    have e : (CF).s0 i = 1 := by
      show (if M.dens0.isSome then _ else (1 : ℝ)) = 1
      rw [hd]; rfl
    rw [e]
    simp [tNorm0, Radials.map, Torch.radials, hd]
  | some d =>
    have e : (CF).s0 i = 1 + ∑ e ∈ T.edg i, hermite (gridStep M.rcut n) (nth (row (F).A0vals (edgePair F T e)))
        (nth (row (F).A0ders (edgePair F T e))) (len (X e)) := by
      show (if M.dens0.isSome then _ else (1 : ℝ)) = _
      rw [hd]; rfl
    rw [e]
    have e3 : tNorm0 M Q SC i = (∑ e ∈ T.edg i, splineOf M.rcut n der (fun r => Real.tanh (d ((SC).z i) ((SC).nz e) r ^ 2)) (len (X e))) + 1 := by
      simp only [tNorm0, Radials.map, Torch.radials, hd, Option.map_some]
      rfl
    rw [e3]
    simp only [Option.isSome_some, if_true, mul_one]
    rw [add_comm]
    congr 1
    refine Finset.sum_congr rfl (fun e he => ?_)
    have h1 := pair_pos_edge (sph := sph) (X := X) (n := n) (der := der) (us := us) (u1 := u1) (inv1 := inv1) ha hT hi he (fun a b => tableOf M.rcut n (fun r => Real.tanh (d a b r ^ 2)))
      (fun a b => by rw [h.dens0 d hd])
    have h2 := pair_pos_edge (sph := sph) (X := X) (n := n) (der := der) (us := us) (u1 := u1) (inv1 := inv1) ha hT hi he (fun a b => der (tableOf M.rcut n (fun r => Real.tanh (d a b r ^ 2))))
      (fun a b => by rw [h.dens0 d hd])
    have v1 : (F).A0vals = (elementPairs an).map (fun p => tableOf M.rcut n (fun r => Real.tanh (d (index M.zs p.1) (index M.zs p.2) r ^ 2))) := by
      unfold fileOf; simp only [hd]
    have v2 : (F).A0ders = (elementPairs an).map (fun p => der (tableOf M.rcut n (fun r => Real.tanh (d (index M.zs p.1) (index M.zs p.2) r ^ 2)))) := by
      unfold fileOf; simp only [hd]
    have e1 : row (F).A0vals (edgePair F T e) = tableOf M.rcut n (fun r => Real.tanh (d ((SC).z i) ((SC).nz e) r ^ 2)) := by
      rw [v1]; exact congrArg (fun o => o.getD []) h1
    have e2 : row (F).A0ders (edgePair F T e) = der (tableOf M.rcut n (fun r => Real.tanh (d ((SC).z i) ((SC).nz e) r ^ 2))) := by
      rw [v2]; exact congrArg (fun o => o.getD []) h2
    rw [e1, e2]
    rfl

theorem s1_eq {i : ℕ} (hi : i < T.N) : (CF).s1 i * (if M.dens1.isSome then 1 else M.avg1) = tNorm1 M Q SC i := by
  cases hd : M.dens1 with
  | none =>
    have e : (CF).s1 i = 1 := by
      show (if M.dens1.isSome then _ else (1 : ℝ)) = 1
      rw [hd]; rfl
    rw [e]
    simp [tNorm1, Radials.map, Torch.radials, hd]
  | some d =>
    have e : (CF).s1 i = 1 + ∑ e ∈ T.edg i, hermite (gridStep M.rcut n) (nth (row (F).A1vals (edgePair F T e)))
        (nth (row (F).A1ders (edgePair F T e))) (len (X e)) := by
      show (if M.dens1.isSome then _ else (1 : ℝ)) = _
      rw [hd]; rfl
    rw [e]
    have e3 : tNorm1 M Q SC i = (∑ e ∈ T.edg i, splineOf M.rcut n der (fun r => Real.tanh (d ((SC).z i) ((SC).nz e) r ^ 2)) (len (X e))) + 1 := by
      simp only [tNorm1, Radials.map, Torch.radials, hd, Option.map_some]
      rfl
    rw [e3]
    simp only [Option.isSome_some, if_true, mul_one]
    rw [add_comm]
    congr 1
    refine Finset.sum_congr rfl (fun e he => ?_)
    have h1 := pair_pos_edge (sph := sph) (X := X) (n := n) (der := der) (us := us) (u1 := u1) (inv1 := inv1) ha hT hi he (fun a b => tableOf M.rcut n (fun r => Real.tanh (d a b r ^ 2)))
      (fun a b => by rw [h.dens1 d hd])
    have h2 := pair_pos_edge (sph := sph) (X := X) (n := n) (der := der) (us := us) (u1 := u1) (inv1 := inv1) ha hT hi he (fun a b => der (tableOf M.rcut n (fun r => Real.tanh (d a b r ^ 2))))
      (fun a b => by rw [h.dens1 d hd])
    have v1 : (F).A1vals = (elementPairs an).map (fun p => tableOf M.rcut n (fun r => Real.tanh (d (index M.zs p.1) (index M.zs p.2) r ^ 2))) := by
      unfold fileOf; simp only [hd]
    have v2 : (F).A1ders = (elementPairs an).map (fun p => der (tableOf M.rcut n (fun r => Real.tanh (d (index M.zs p.1) (index M.zs p.2) r ^ 2)))) := by
      unfold fileOf; simp only [hd]
    have e1 : row (F).A1vals (edgePair F T e) = tableOf M.rcut n (fun r => Real.tanh (d ((SC).z i) ((SC).nz e) r ^ 2)) := by
      rw [v1]; exact congrArg (fun o => o.getD []) h1
    have e2 : row (F).A1ders (edgePair F T e) = der (tableOf M.rcut n (fun r => Real.tanh (d ((SC).z i) ((SC).nz e) r ^ 2))) := by
      rw [v2]; exact congrArg (fun o => o.getD []) h2
    rw [e1, e2]
    rfl

/-! ## First layer -/

omit h ha hT in
theorem emb_eq {t k : ℕ} (ht : t < an.length) (hk : k < M.C) : (W).emb t k = tUp0 M (M.zs.idxOf (nthN an t)) k := by
  show nth (flatten an.length M.C _) (t * M.C + k) = _
  rw [flatten_get _ ht hk, getD_nthN]
  unfold tUp0 tEmb matMul
  rw [Finset.sum_div]
  refine Finset.sum_congr rfl (fun j _ => ?_)
  show _ = _ * _
  unfold index
  ring

theorem phi0_eq {i lm k : ℕ} (hi : i < T.N) (hlm : lm < (M.lmax + 1) * (M.lmax + 1)) (hk : k < M.C) :
    phi0 W CF i lm k = tConv0 M Q SC i lm k := by
  unfold phi0 tConv0
  refine Finset.sum_congr rfl (fun e he => ?_)
  rw [R0_eq h ha hT hi he (sqrt_le_of_lt hlm) hk]
  congr 1
  exact emb_eq (hT.nty e (edg_lt hi he)) hk

theorem a0_eq {i lm k : ℕ} (hi : i < T.N) (hlm : lm < (M.lmax + 1) * (M.lmax + 1)) (hk : k < M.C) :
    a0s W CF i lm k = tMsg0 M Q SC i lm k := by
  have hl := sqrt_le_of_lt hlm
  have ht : nthN T.types i < an.length := hT.typ i hi
  have e : ∀ k' < M.C, (W).mix0 ((CF).typ i) (Nat.sqrt lm) k' k
      = matMul M.C (fun k' k => if M.dens0.isSome then M.lin0 (Nat.sqrt lm) k' k / Real.sqrt M.C else M.lin0 (Nat.sqrt lm) k' k / Real.sqrt M.C / M.avg0)
          (fun k' k => M.skip0 (Nat.sqrt lm) k' ((SC).z i) k) k' k / Real.sqrt (M.zs.length * M.C) := by
    intro k' hk'
    show nth (row (tbl (an.map _) (nthN T.types i)) (Nat.sqrt lm)) (k' * M.C + k) = _
    rw [tbl_map _ _ ht, row_map _ _ (by simpa using Nat.lt_succ_of_le hl), flatten_get _ hk' hk, List.getElem_range]
    rw [getElem_nthN ht]
    rfl
  have hs := s0_eq (sph := sph) (X := X) h ha hT hi
  have e2 : a0 W CF i lm k = ∑ j ∈ Finset.range M.C, (∑ k' ∈ Finset.range M.C, tConv0 M Q SC i lm k'
      * (if M.dens0.isSome then M.lin0 (Nat.sqrt lm) k' j / Real.sqrt M.C else M.lin0 (Nat.sqrt lm) k' j / Real.sqrt M.C / M.avg0))
        * (M.skip0 (Nat.sqrt lm) j ((SC).z i) k / Real.sqrt (M.zs.length * M.C)) := by
    rw [← fuse M.C (fun k' => tConv0 M Q SC i lm k')]
    exact Finset.sum_congr rfl (fun k' hk' => by rw [e k' (Finset.mem_range.mp hk'), phi0_eq h ha hT hi hlm (Finset.mem_range.mp hk')])
  unfold a0s tMsg0
  rw [e2, Finset.sum_div]
  refine Finset.sum_congr rfl (fun j _ => ?_)
  unfold tLin0
  rw [← hs, mul_div_right_comm]
  congr 1
  by_cases hd : M.dens0.isSome
  · simp [hd]
  · simp only [hd]
    rw [Finset.sum_div, Finset.sum_div]
    refine Finset.sum_congr rfl (fun k' _ => ?_)
    simp only [Bool.false_eq_true, if_false]
    rw [← mul_div_assoc, div_div, mul_comm M.avg0]

theorem m0_eq (hs : SparseOk M us) {i LM k : ℕ} (hi : i < T.N) (hLM : LM < (M.Lmax + 1) * (M.Lmax + 1)) (hk : k < M.C) :
    m0 W CF i LM k = tProd0 M Q SC i LM k := by
  have e1 : m0 W CF i LM k = (poly0 M an us (nthN T.types i) LM k).total (monomial (fun lm => a0s W CF i lm k)) := by
    rw [← polynomial_dict]
    show polynomial _ (poly0 M an us (an.length - 1) LM (M.C - 1)).keys _ = polynomial _ (poly0 M an us (nthN T.types i) LM k).keys _
    rw [poly0_keys LM (an.length - 1) (M.C - 1) (nthN T.types i) k]
    rfl
  rw [e1, poly0_eq hLM, poly_contraction (U := M.U0 (Nat.sqrt LM)) (h.U0 _) (hs _ (sqrt_le_of_lt hLM)) (sqrt_split LM).1]
  unfold tProd0
  refine Finset.sum_congr rfl (fun corr _ => Finset.sum_congr rfl (fun eta _ => ?_))
  rw [getD_nthN, contraction_congr _ (fun lm hlm => a0_eq (sph := sph) (X := X) h ha hT hi hlm hk)]
  rfl

omit h ha hT in
theorem lin1_eq {l k' k : ℕ} (hl : l ≤ M.Lmax) (hk' : k' < M.C) (hk : k < M.C) : (W).lin1 l k' k
    = matMul M.C (fun k' k => M.plin0 ((l * M.C + k') * M.C + k) / Real.sqrt M.C) (fun k' k => M.up1 ((l * M.C + k') * M.C + k) / Real.sqrt M.C) k' k := by
  have hb : k' * M.C + k < M.C * M.C := by nlinarith
  have := flatMap_range_get (fun l => flatten M.C M.C (matMul M.C (fun k' k => M.plin0 ((l * M.C + k') * M.C + k) / Real.sqrt M.C)
    (fun k' k => M.up1 ((l * M.C + k') * M.C + k) / Real.sqrt M.C))) (n := M.Lmax + 1) (a := l) (b := k' * M.C + k) (by omega) (by rw [flatten_length]; exact hb)
  simp only [flatten_length] at this
  rw [List.map_const', List.sum_replicate, List.length_range, smul_eq_mul, ← Nat.mul_assoc] at this
  have h2 : (W).lin1 l k' k = _ := congrArg (fun o => o.getD 0) this
  rw [h2]
  exact flatten_get _ hk' hk

theorem h1_eq (hs : SparseOk M us) {i LM k : ℕ} (hi : i < T.N) (hLM : LM < (M.Lmax + 1) * (M.Lmax + 1)) (hk : k < M.C) :
    h1 W CF i LM k = tUp1 M Q SC i LM k := by
  have : h1 W CF i LM k = ∑ k' ∈ Finset.range M.C, tProd0 M Q SC i LM k' * matMul M.C
      (fun k' k => M.plin0 ((Nat.sqrt LM * M.C + k') * M.C + k) / Real.sqrt M.C)
      (fun k' k => M.up1 ((Nat.sqrt LM * M.C + k') * M.C + k) / Real.sqrt M.C) k' k :=
    Finset.sum_congr rfl (fun k' hk' => by
      rw [m0_eq h ha hT hs hi hLM (Finset.mem_range.mp hk'), lin1_eq (sqrt_le_of_lt hLM) (Finset.mem_range.mp hk') hk])
  rw [this, fuse1]
  rfl

/-! ## Second layer -/

omit h ha hT in
theorem sum_range_get {α : Type} (l : List α) (d : α) (G : α → ℝ) : ∑ p ∈ Finset.range l.length, G (l[p]?.getD d) = (l.map G).sum := by
  induction l with
  | nil => rfl
  | cons a l ih =>
    rw [List.length_cons, Finset.sum_range_succ', List.map_cons, List.sum_cons, ← ih, add_comm]
    simp

omit ha hT in
/-- The entries of the table for one output. -/
theorem pick (g : ℕ → ℝ) {le mu : ℕ} (hle : le < M.phil.length) (hmu : mu < 2 * nthN M.phil le + 1) :
    ∑ p ∈ Finset.range (W).nCG, (if (W).cgOut p = baseOf M.phil (nthN M.phil le) + mu * M.phil.count (nthN M.phil le) + M.rank le then
        (W).cgC p * g ((W).cgIn p) else 0)
      = ∑ m1 ∈ Finset.range (2 * nthN M.phil1 le + 1), ∑ m2 ∈ Finset.range (2 * nthN M.phil2 le + 1), cg le m1 m2 mu * g (chanPos M le m1 m2) := by
  set o := baseOf M.phil (nthN M.phil le) + mu * M.phil.count (nthN M.phil le) + M.rank le with ho
  have hlme : lmeOf M.phil le (nthN M.phil le) mu = o := lmeOf_eq h.phil.1 hle mu
  have e1 : ∑ p ∈ Finset.range (W).nCG, (if (W).cgOut p = o then (W).cgC p * g ((W).cgIn p) else 0)
      = ((couplingTable M).map (fun q => q.2.1 * (fun a c => if a = o then g c else 0) q.1 q.2.2.toNat)).sum := by
    rw [← sum_range_get _ (0, 0, 0)]
    have hl : (W).nCG = (couplingTable M).length := by
      show ((couplingTable M).map _).length = _
      rw [List.length_map]
    rw [hl]
    refine Finset.sum_congr rfl (fun p hp => ?_)
    have hp := Finset.mem_range.mp hp
    have a1 : (W).cgOut p = (couplingTable M)[p].1 := by
      show nthN ((couplingTable M).map _) p = _
      simp [nthN, hp]
    have a2 : (W).cgIn p = (couplingTable M)[p].2.2.toNat := by
      show nthN ((couplingTable M).map _) p = _
      simp [nthN, hp]
    have a3 : (W).cgC p = (couplingTable M)[p].2.1 := by
      show nth ((couplingTable M).map _) p = _
      simp [nth, hp]
    rw [a1, a2, a3, List.getElem?_eq_getElem hp, Option.getD_some]
    simp only []
    split_ifs
    · rfl
    · rw [mul_zero]
  rw [e1.trans (coupling_sum h (fun a c => if a = o then g c else 0)), Finset.sum_eq_single le]
  · rw [Finset.sum_eq_single mu]
    · refine Finset.sum_congr rfl (fun m1 _ => Finset.sum_congr rfl (fun m2 _ => ?_))
      rw [if_pos hlme]
    · intro mu' hmu' hne
      refine Finset.sum_eq_zero (fun m1 _ => Finset.sum_eq_zero (fun m2 _ => ?_))
      rw [if_neg, mul_zero]
      intro hh
      exact hne (lme_inj h.phil.1 hle hle (Finset.mem_range.mp hmu') hmu (hh.trans hlme.symm)).2
    · intro hh; exact absurd (Finset.mem_range.mpr hmu) hh
  · intro le' hle' hne
    refine Finset.sum_eq_zero (fun mu' hmu' => Finset.sum_eq_zero (fun m1 _ => Finset.sum_eq_zero (fun m2 _ => ?_)))
    rw [if_neg, mul_zero]
    intro hh
    exact hne (lme_inj h.phil.1 (Finset.mem_range.mp hle') hle (Finset.mem_range.mp hmu') hmu (hh.trans hlme.symm)).1
  · intro hh; exact absurd (Finset.mem_range.mpr hle) hh

omit h ha hT in
theorem chan_eq {le m1 m2 : ℕ} (hle : le < M.phil.length) (hm1 : m1 < 2 * nthN M.phil1 le + 1) (hm2 : m2 < 2 * nthN M.phil2 le + 1) :
    (W).qp (chanPos M le m1 m2) = le ∧ (W).q1 (chanPos M le m1 m2) = nthN M.phil1 le * nthN M.phil1 le + m1 ∧
      (W).q2 (chanPos M le m1 m2) = nthN M.phil2 le * nthN M.phil2 le + m2 := by
  have hc := chan_get (n := n) (der := der) (an := an) (us := us) (u1 := u1) (inv1 := inv1) M hle hm1 hm2
  exact ⟨congrArg (fun o => (o.getD (0, 0, 0)).1) hc, congrArg (fun o => (o.getD (0, 0, 0)).2.1) hc, congrArg (fun o => (o.getD (0, 0, 0)).2.2) hc⟩

omit ha hT in
theorem phi1_eq (H : ℕ → ℕ → ℕ → ℝ) (i : ℕ) {le mu : ℕ} (hle : le < M.phil.length) (hmu : mu < 2 * nthN M.phil le + 1) (k : ℕ) :
    phi1 W CF H i (baseOf M.phil (nthN M.phil le) + mu * M.phil.count (nthN M.phil le) + M.rank le) k
      = ∑ m1 ∈ Finset.range (2 * nthN M.phil1 le + 1), ∑ m2 ∈ Finset.range (2 * nthN M.phil2 le + 1), cg le m1 m2 mu
          * ∑ e ∈ T.edg i, (CF).R1 e le k * (CF).Y e (nthN M.phil1 le * nthN M.phil1 le + m1)
              * H (nthN T.idx e) (nthN M.phil2 le * nthN M.phil2 le + m2) k := by
  unfold phi1
  rw [pick h (fun c => phi1r W CF H i c k) hle hmu]
  refine Finset.sum_congr rfl (fun m1 hm1 => Finset.sum_congr rfl (fun m2 hm2 => ?_))
  congr 1
  obtain ⟨b1, b2, b3⟩ := chan_eq (n := n) (der := der) (an := an) (us := us) (u1 := u1) (inv1 := inv1) hle (Finset.mem_range.mp hm1)
    (Finset.mem_range.mp hm2)
  unfold phi1r
  rw [b1, b2, b3]
  rfl

theorem conv1_eq (hs : SparseOk M us) {i le mu k : ℕ} (hi : i < T.N) (hle : le < M.phil.length) (hmu : mu < 2 * nthN M.phil le + 1) (hk : k < M.C) :
    phi1 W CF (h1 W CF) i (baseOf M.phil (nthN M.phil le) + mu * M.phil.count (nthN M.phil le) + M.rank le) k
      = tConv1 M Q cg SC i le mu k := by
  rw [phi1_eq h _ i hle hmu]
  unfold tConv1
  simp only [Finset.mul_sum]
  have e : ∀ m1 ∈ Finset.range (2 * nthN M.phil1 le + 1), ∀ m2 ∈ Finset.range (2 * nthN M.phil2 le + 1), ∀ e ∈ T.edg i,
      cg le m1 m2 mu * ((CF).R1 e le k * (CF).Y e (nthN M.phil1 le * nthN M.phil1 le + m1)
        * h1 W CF (nthN T.idx e) (nthN M.phil2 le * nthN M.phil2 le + m2) k)
      = (Q).R1 ((SC).z i) ((SC).nz e) (le * M.C + k) ((SC).len e) * (cg le m1 m2 mu * (SC).Y e (nthN M.phil1 le * nthN M.phil1 le + m1)
        * tUp1 M Q SC ((SC).nbr e) (nthN M.phil2 le * nthN M.phil2 le + m2) k) := by
    intro m1 hm1 m2 hm2 e he
    have hp2 : nthN M.phil2 le ≤ M.Lmax := h.phil2.2 _ (nthN_mem (by have := h.phil2.1; omega))
    have hlm : nthN M.phil2 le * nthN M.phil2 le + m2 < (M.Lmax + 1) * (M.Lmax + 1) := by
      have := Finset.mem_range.mp hm2
      nlinarith
    rw [R1_eq h ha hT hi he hle hk, h1_eq h ha hT hs (hT.nbr e (edg_lt hi he)) hlm hk]
    show _ * (_ * (SC).Y e _ * tUp1 M Q SC ((SC).nbr e) _ _) = _
    ring
  rw [Finset.sum_congr rfl (fun m1 hm1 => Finset.sum_congr rfl (fun m2 hm2 => Finset.sum_congr rfl (fun e' he' => e m1 hm1 m2 hm2 e' he')))]
  exact sum_swap2 _ _ _ _

theorem a1_eq (hs : SparseOk M us) {i lm k : ℕ} (hi : i < T.N) (hlm : lm < (M.lmax + 1) * (M.lmax + 1)) (hk : k < M.C) :
    a1s W CF (h1 W CF) i lm k = tMsg1 M Q cg SC i lm k := by
  have hl := sqrt_le_of_lt hlm
  obtain ⟨hm1, hm2⟩ := sqrt_split lm
  set l := Nat.sqrt lm with hldef
  have hmix : ∀ e < M.phil.count l, ∀ k' < M.C, (W).mix1 l e k' k = if M.dens1.isSome then M.lin1 l (e * M.C + k') k / Real.sqrt ((M.phil.count l : ℝ) * M.C)
      else M.lin1 l (e * M.C + k') k / Real.sqrt ((M.phil.count l : ℝ) * M.C) / M.avg1 := by
    intro e he k' hk'
    have hek : e * M.C + k' < M.phil.count l * M.C := by nlinarith
    show nth (row ((List.range (M.lmax + 1)).map _) l) ((e * M.C + k') * M.C + k) = _
    rw [row_map _ _ (by simpa using Nat.lt_succ_of_le hl), List.getElem_range, flatten_get _ hek hk]
  have e1 : a1 W CF (h1 W CF) i lm k = ∑ le ∈ (Finset.range M.phil.length).filter (fun le => nthN M.phil le = l), ∑ k' ∈ Finset.range M.C,
      tConv1 M Q cg SC i le (lm - l * l) k' * (if M.dens1.isSome then M.lin1 l (M.rank le * M.C + k') k / Real.sqrt ((M.phil.count l : ℝ) * M.C)
      else M.lin1 l (M.rank le * M.C + k') k / Real.sqrt ((M.phil.count l : ℝ) * M.C) / M.avg1) := by
    symm
    refine Finset.sum_bij (fun le _ => M.rank le) ?_ ?_ ?_ ?_
    · intro le hle
      obtain ⟨h1', h2'⟩ := Finset.mem_filter.mp hle
      have := rank_lt h.phil.1 (Finset.mem_range.mp h1')
      rw [h2'] at this
      refine Finset.mem_range.mpr ?_
      unfold Torch.rank
      rw [h2']
      exact this
    · intro a ha' b hb' hab
      obtain ⟨h1', h2'⟩ := Finset.mem_filter.mp ha'
      obtain ⟨h3', h4'⟩ := Finset.mem_filter.mp hb'
      exact path_ext h.phil.1 (Finset.mem_range.mp h1') (Finset.mem_range.mp h3') (h2'.trans h4'.symm) hab
    · intro e he
      have he : e < M.phil.count l := Finset.mem_range.mp he
      have hle := countP_le M.phil l
      have hlt : M.phil.countP (fun x => decide (x < l)) + e < M.phil.length := by omega
      have heq := (sorted_eq_iff h.phil.1 l hlt).mpr ⟨by omega, by omega⟩
      refine ⟨_, Finset.mem_filter.mpr ⟨Finset.mem_range.mpr hlt, heq⟩, ?_⟩
      unfold Torch.rank
      rw [rank_eq h.phil.1 hlt, heq]
      omega
    · intro le hle
      obtain ⟨h1', h2'⟩ := Finset.mem_filter.mp hle
      have hr := rank_lt h.phil.1 (Finset.mem_range.mp h1')
      refine Finset.sum_congr rfl (fun k' hk' => ?_)
      have hk' := Finset.mem_range.mp hk'
      rw [← conv1_eq h ha hT hs hi (Finset.mem_range.mp h1') (mu := lm - l * l) (by rw [h2']; exact hm1) hk', ← hldef,
        hmix _ (by rw [← h2']; exact hr) k' hk', h2']
      rfl
  have hs1 := s1_eq (sph := sph) (X := X) h ha hT hi
  unfold a1s tMsg1
  rw [e1, ← hs1, ← hldef]
  by_cases hd : M.dens1.isSome
  · simp [hd]
  · simp only [hd]
    simp only [Bool.false_eq_true, if_false]
    rw [Finset.sum_div, Finset.sum_div]
    refine Finset.sum_congr rfl (fun le _ => ?_)
    rw [Finset.sum_div, Finset.sum_div]
    refine Finset.sum_congr rfl (fun k' _ => ?_)
    rw [← mul_div_assoc, div_div, mul_comm M.avg1]

theorem m1_eq (hs : SparseOk M us) (hs1 : SparseOk1 M u1) {i k : ℕ} (hi : i < T.N) (hk : k < M.C) :
    m1 W CF (h1 W CF) i k = tProd1 M Q cg SC i k := by
  have e1 : m1 W CF (h1 W CF) i k = (poly1 M an u1 (nthN T.types i) k).total (monomial (fun lm => a1s W CF (h1 W CF) i lm k)) := by
    rw [← polynomial_dict]
    show polynomial _ (poly1 M an u1 (an.length - 1) (M.C - 1)).keys _ = polynomial _ (poly1 M an u1 (nthN T.types i) k).keys _
    rw [poly1_keys (an.length - 1) (M.C - 1) (nthN T.types i) k]
    rfl
  rw [e1]
  unfold poly1
  rw [poly_contraction (nm := 1) (U := fun corr _ t eta => M.U1 corr t eta) (fun corr _ t eta => h.U1 corr t eta) hs1 (by omega)]
  unfold tProd1
  refine Finset.sum_congr rfl (fun corr _ => Finset.sum_congr rfl (fun eta _ => ?_))
  rw [getD_nthN, contraction_congr _ (fun lm hlm => a1_eq (sph := sph) (X := X) h ha hT hs hi hlm hk)]
  rfl

/-- Undoing the linear map in front of the second layer. -/
theorem undo (hs : SparseOk M us) (hinv : ∀ a < M.C, ∀ b < M.C, ∑ j ∈ Finset.range M.C, M.up1 (a * M.C + j) / Real.sqrt M.C * inv1 j b = if a = b then 1 else 0)
    {i j : ℕ} (hi : i < T.N) (hj : j < M.C) : ∑ k' ∈ Finset.range M.C, h1 W CF i 0 k' * inv1 k' j = tFeat0 M Q SC i 0 j := by
  have h0 : (0 : ℕ) < (M.Lmax + 1) * (M.Lmax + 1) := by positivity
  rw [Finset.sum_congr rfl (fun k' hk' => by rw [h1_eq h ha hT hs hi h0 (Finset.mem_range.mp hk')])]
  unfold tUp1
  simp only [Nat.sqrt_zero, Nat.zero_mul, Nat.zero_add, Finset.sum_mul]
  rw [Finset.sum_comm]
  have : ∀ a ∈ Finset.range M.C, ∑ k' ∈ Finset.range M.C, tFeat0 M Q SC i 0 a * (M.up1 (a * M.C + k') / Real.sqrt M.C) * inv1 k' j
      = tFeat0 M Q SC i 0 a * if a = j then 1 else 0 := by
    intro a ha'
    rw [← hinv a (Finset.mem_range.mp ha') j hj, Finset.mul_sum]
    exact Finset.sum_congr rfl (fun _ _ => by ring)
  rw [Finset.sum_congr rfl this, Finset.sum_eq_single j]
  · simp
  · intro b _ hb; simp [hb]
  · intro hh; exact absurd (Finset.mem_range.mpr hj) hh

theorem h2_eq (hs : SparseOk M us) (hs1 : SparseOk1 M u1) (hinv : ∀ a < M.C, ∀ b < M.C, ∑ j ∈ Finset.range M.C, M.up1 (a * M.C + j) / Real.sqrt M.C * inv1 j b = if a = b then 1 else 0)
    {i k : ℕ} (hi : i < T.N) (hk : k < M.C) : h2 W CF (h1 W CF) i k = tFeat1 M Q cg SC i k := by
  have ht : nthN T.types i < an.length := hT.typ i hi
  have e1 : ∀ k' < M.C, (W).lin2h ((CF).typ i) k' k = matMul M.C inv1 (fun k' k => M.skip1 k' ((SC).z i) k / Real.sqrt (M.zs.length * M.C)) k' k := by
    intro k' hk'
    show nth (row (an.map _) (nthN T.types i)) (k' * M.C + k) = _
    rw [row_map _ _ ht, flatten_get _ hk' hk, getElem_nthN ht]
    rfl
  have e2 : ∀ k' < M.C, (W).lin2m k' k = M.plin1 (k' * M.C + k) / Real.sqrt M.C := by
    intro k' hk'
    show nth ((List.range (M.C * M.C)).map _) (k' * M.C + k) = _
    rw [nth_map_range _ (by nlinarith)]
  have e3 : (∑ k' ∈ Finset.range M.C, h1 W CF i 0 k' * (W).lin2h ((CF).typ i) k' k)
      = ∑ k' ∈ Finset.range M.C, tFeat0 M Q SC i 0 k' * (M.skip1 k' ((SC).z i) k / Real.sqrt (M.zs.length * M.C)) := by
    rw [Finset.sum_congr rfl (fun k' hk' => by rw [e1 k' (Finset.mem_range.mp hk')]), fuse1]
    exact Finset.sum_congr rfl (fun j hj => by rw [undo h ha hT hs hinv hi (Finset.mem_range.mp hj)])
  have e4 : (∑ k' ∈ Finset.range M.C, m1 W CF (h1 W CF) i k' * (W).lin2m k' k)
      = ∑ k' ∈ Finset.range M.C, tProd1 M Q cg SC i k' * (M.plin1 (k' * M.C + k) / Real.sqrt M.C) :=
    Finset.sum_congr rfl (fun k' hk' => by rw [e2 k' (Finset.mem_range.mp hk'), m1_eq h ha hT hs hs1 hi (Finset.mem_range.mp hk')])
  unfold tFeat1
  rw [← e3, ← e4, add_comm]
  rfl

/-! ## Energy -/

omit h ha in
theorem pairE_eq {i : ℕ} (hi : i < T.N) : (CF).pairE i = M.scale * (SC).pair i := by
  cases hz : M.zbl with
  | none =>
    have e1 : (CF).pairE i = 0 := by simp [confOf, fileOf, hz]
    have e2 : (SC).pair i = 0 := by simp [sceneOf, hz]
    rw [e1, e2, mul_zero]
  | some p =>
    have e1 : (CF).pairE i = ∑ e ∈ T.edg i, zblEdge F T X { p with c := p.c.map (fun x => M.scale * x) } e := by
      simp [confOf, fileOf, hz]
    have e2 : (SC).pair i = ∑ e ∈ T.edg i, zblEnergy p.aExp p.aPre (fun k => nth p.c k)
        (nth p.rad (nthN an (nthN T.types i)) + nth p.rad (nthN an (nthN T.ntypes e))) p.p.toNat
        (nthN an (nthN T.types i)) (nthN an (nthN T.ntypes e)) (len (X e)) := by simp [sceneOf, hz]
    rw [e1, e2, Finset.mul_sum]
    refine Finset.sum_congr rfl (fun e he => ?_)
    have hc : ∀ k : ℕ, nth (p.c.map (fun x => M.scale * x)) k = M.scale * nth p.c k := by
      intro k
      unfold nth
      rw [List.getElem?_map]
      cases p.c[k]? <;> simp
    have hat : (F).atomicNumbers = an := rfl
    unfold zblEdge
    rw [owner_eq hi he]
    simp only [zblEnergy, zblPhi, hc, hat]
    ring

theorem energy_eq (hs : SparseOk M us) (hs1 : SparseOk1 M u1) (hinv : ∀ a < M.C, ∀ b < M.C, ∑ j ∈ Finset.range M.C, M.up1 (a * M.C + j) / Real.sqrt M.C * inv1 j b = if a = b then 1 else 0)
    {i : ℕ} (hi : i < T.N) : energy W CF i = torchEnergy M Q cg SC i := by
  have ht : nthN T.types i < an.length := hT.typ i hi
  have e1 : (W).atomE ((CF).typ i) = M.e0 ((SC).z i) + M.shift := by
    show nth (an.map _) (nthN T.types i) = _
    have : nth (an.map (fun a => M.e0 (index M.zs a) + M.shift)) (nthN T.types i) = M.e0 (index M.zs an[nthN T.types i]) + M.shift := by
      simp [nth, ht]
    rw [this, getElem_nthN ht]
    rfl
  have e2 : (∑ k ∈ Finset.range M.C, (W).read1 k * h1 W CF i 0 k) = M.scale * tRead0 M Q SC i := by
    have : ∀ k ∈ Finset.range M.C, (W).read1 k * h1 W CF i 0 k = ∑ j ∈ Finset.range M.C, (h1 W CF i 0 k * inv1 k j) * (M.read1 j / Real.sqrt M.C * M.scale) := by
      intro k hk
      have : (W).read1 k = (∑ j ∈ Finset.range M.C, inv1 k j * (M.read1 j / Real.sqrt M.C)) * M.scale :=
        nth_map_range _ (Finset.mem_range.mp hk)
      rw [this, Finset.sum_mul, Finset.sum_mul]
      exact Finset.sum_congr rfl (fun _ _ => by ring)
    rw [Finset.sum_congr rfl this, Finset.sum_comm]
    unfold tRead0
    rw [Finset.mul_sum]
    refine Finset.sum_congr rfl (fun j hj => ?_)
    rw [← Finset.sum_mul, undo h ha hT hs hinv hi (Finset.mem_range.mp hj)]
    ring
  have e3 : (W).read2 (h2 W CF (h1 W CF) i) = M.scale * tRead1 M Q cg SC i := by
    have e4 : ∀ x, (W).read2 x = ∑ j ∈ Finset.range 16, nth (F).ro2w2 (0 * 16 + j)
        * scaledSilu M.cst (∑ k ∈ Finset.range M.C, nth (F).ro2w1 (j * M.C + k) * x k) := fun x => rfl
    rw [e4]
    unfold tRead1
    rw [Finset.mul_sum]
    refine Finset.sum_congr rfl (fun j hj => ?_)
    have hj := Finset.mem_range.mp hj
    have a1 : nth (F).ro2w2 (0 * 16 + j) = M.read2b j / Real.sqrt 16 * M.scale := by
      rw [Nat.zero_mul, Nat.zero_add]
      exact nth_map_range _ hj
    have a2 : ∑ k ∈ Finset.range M.C, nth (F).ro2w1 (j * M.C + k) * h2 W CF (h1 W CF) i k
        = ∑ k ∈ Finset.range M.C, tFeat1 M Q cg SC i k * (M.read2a (k * 16 + j) / Real.sqrt M.C) := by
      refine Finset.sum_congr rfl (fun k hk => ?_)
      have hk := Finset.mem_range.mp hk
      have : nth (F).ro2w1 (j * M.C + k) = M.read2a (k * 16 + j) / Real.sqrt M.C := flatten_get _ hj hk
      rw [this, h2_eq h ha hT hs hs1 hinv hi hk, mul_comm]
    rw [a1, a2]
    ring
  show (CF).pairE i + (W).atomE ((CF).typ i) + (∑ k ∈ Finset.range M.C, (W).read1 k * h1 W CF i 0 k) + (W).read2 (h2 W CF (h1 W CF) i) = _
  rw [e1, e2, e3, pairE_eq hT hi]
  unfold torchEnergy
  ring

end layers
end Verif.Extract
