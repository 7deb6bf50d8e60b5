import Verif.Lemmas.MACE.Pipeline
import Mathlib.Algebra.BigOperators.Field

/-!
# Directional derivatives of the formulas and their pairing with the reverse pass

`Tan` contains the derivatives of the edge features along a direction.  The functions `t…` are the resulting derivatives of the
features, as finite sums.  `pair1`, `pair2` say that the reverse passes are the transposes of these maps (pure algebra).
-/

namespace Verif.MACE
open Verif.Spec Verif.Poly

variable {K : Type} [Field K]

/-- Derivatives of the edge features and of the density normalisations. -/
structure Tan (K : Type) where
  R0 : ℕ → ℕ → ℕ → K
  R1 : ℕ → ℕ → ℕ → K
  Y : ℕ → ℕ → K
  s0 : ℕ → K
  s1 : ℕ → K

section defs
variable (W : Net K) (c : Conf K) (t : Tan K) (H H' : ℕ → ℕ → ℕ → K)

def tphi0 (i lm k : ℕ) : K :=
  ∑ e ∈ c.edg i, (t.R0 e (Nat.sqrt lm) k * c.Y e lm + c.R0 e (Nat.sqrt lm) k * t.Y e lm) * W.emb (c.nty e) k

def ta0 (i lm k : ℕ) : K := ∑ k' ∈ Finset.range W.C, tphi0 W c t i lm k' * W.mix0 (c.typ i) (Nat.sqrt lm) k' k

def ta0s (i lm k : ℕ) : K := (ta0 W c t i lm k - a0s W c i lm k * t.s0 i) / c.s0 i

def tm0 (i LM k : ℕ) : K := ∑ lm ∈ Finset.range W.M, g0 W c (a0s W c) i LM lm k * ta0s W c t i lm k

def th1 (i LM k : ℕ) : K := ∑ k' ∈ Finset.range W.C, tm0 W c t i LM k' * W.lin1 (Nat.sqrt LM) k' k

def tphi1r (i q k : ℕ) : K :=
  ∑ e ∈ c.edg i, ((t.R1 e (W.qp q) k * c.Y e (W.q1 q) + c.R1 e (W.qp q) k * t.Y e (W.q1 q)) * H (c.nbr e) (W.q2 q) k
    + c.R1 e (W.qp q) k * c.Y e (W.q1 q) * H' (c.nbr e) (W.q2 q) k)

def tphi1 (i o k : ℕ) : K :=
  ∑ p ∈ Finset.range W.nCG, if W.cgOut p = o then W.cgC p * tphi1r W c t H H' i (W.cgIn p) k else 0

def ta1 (i lm k : ℕ) : K :=
  ∑ e ∈ Finset.range (W.nE (Nat.sqrt lm)), ∑ k' ∈ Finset.range W.C,
    tphi1 W c t H H' i (W.base (Nat.sqrt lm) + (lm - Nat.sqrt lm * Nat.sqrt lm) * W.nE (Nat.sqrt lm) + e) k'
      * W.mix1 (Nat.sqrt lm) e k' k

def ta1s (i lm k : ℕ) : K := (ta1 W c t H H' i lm k - a1s W c H i lm k * t.s1 i) / c.s1 i

def tm1 (i k : ℕ) : K := ∑ lm ∈ Finset.range W.M, g1 W c (a1s W c H) i lm k * ta1s W c t H H' i lm k

def th2 (i k : ℕ) : K :=
  (∑ k' ∈ Finset.range W.C, H' i 0 k' * W.lin2h (c.typ i) k' k)
    + ∑ k' ∈ Finset.range W.C, tm1 W c t H H' i k' * W.lin2m k' k

def tE (G : (ℕ → K) → ℕ → K) (i : ℕ) : K :=
  (∑ k ∈ Finset.range W.C, W.read1 k * H' i 0 k) + ∑ k ∈ Finset.range W.C, G (h2 W c H i) k * th2 W c t H H' i k

end defs

/-! ## Algebra of finite sums -/

section sums

/-- `Σ_k u_k Σ_k' v_k' A_k'k = Σ_k' (Σ_k u_k A_k'k) v_k'`. -/
theorem sum_transpose (s s' : Finset ℕ) (u v : ℕ → K) (A : ℕ → ℕ → K) :
    ∑ k ∈ s, u k * ∑ k' ∈ s', v k' * A k' k = ∑ k' ∈ s', (∑ k ∈ s, u k * A k' k) * v k' := by
  simp only [Finset.mul_sum, Finset.sum_mul]
  rw [Finset.sum_comm]
  exact Finset.sum_congr rfl (fun _ _ => Finset.sum_congr rfl (fun _ _ => by ring))

/-- Every output index is `(l, m, path)`. -/
theorem sum_out (W : Net K) (f : ℕ → K) :
    ∑ o ∈ Finset.range W.nOut, f o = ∑ l ∈ Finset.range (W.lmax + 1), ∑ mm ∈ Finset.range (2 * l + 1),
      ∑ e ∈ Finset.range (W.nE l), f (W.base l + mm * W.nE l + e) := by
  unfold Net.nOut
  generalize W.lmax + 1 = L
  induction L with
  | zero => simp [Net.base]
  | succ L ih =>
    rw [base_succ, Finset.sum_range_add, ih, Finset.sum_range_succ, sum_flat]
    simp only [add_assoc]

/-- Dividing by the normalisation: adjoint and tangent. -/
theorem pair_scale (s : Finset ℕ) (s' : Finset ℕ) (A a ta : ℕ → ℕ → K) (sc tsc : K) :
    ∑ lm ∈ s, ∑ k ∈ s', A lm k * ((ta lm k - a lm k * tsc) / sc)
      = (∑ lm ∈ s, ∑ k ∈ s', A lm k / sc * ta lm k) - (∑ lm ∈ s, ∑ k ∈ s', A lm k * a lm k) / sc * tsc := by
  rw [Finset.sum_div, Finset.sum_mul, ← Finset.sum_sub_distrib]
  refine Finset.sum_congr rfl (fun lm _ => ?_)
  rw [Finset.sum_div, Finset.sum_mul, ← Finset.sum_sub_distrib]
  refine Finset.sum_congr rfl (fun k _ => ?_)
  ring

end sums

/-! ## Pairings -/

/-- The direction: bond vectors move with velocity `D`, so `dR = R' (x·D)/r` and `dY = ∇Y·D`. -/
structure TanOk (c : Conf K) (d : DConf K) (t : Tan K) (N : ℕ) (D : ℕ → ℕ → K) : Prop where
  R0 : ∀ i < N, ∀ e ∈ c.edg i, ∀ l k, t.R0 e l k = d.dR0 e l k * ((∑ a ∈ Finset.range 3, d.X e a * D e a) / d.R e)
  R1 : ∀ i < N, ∀ e ∈ c.edg i, ∀ l k, t.R1 e l k = d.dR1 e l k * ((∑ a ∈ Finset.range 3, d.X e a * D e a) / d.R e)
  Y : ∀ i < N, ∀ e ∈ c.edg i, ∀ lm, t.Y e lm = ∑ a ∈ Finset.range 3, d.dY e a lm * D e a
  s0 : ∀ i < N, t.s0 i = ∑ e ∈ c.edg i, d.ds0 e * ((∑ a ∈ Finset.range 3, d.X e a * D e a) / d.R e)
  s1 : ∀ i < N, t.s1 i = ∑ e ∈ c.edg i, d.ds1 e * ((∑ a ∈ Finset.range 3, d.X e a * D e a) / d.R e)

section pairings
variable {W : Net K} {c : Conf K} {d : DConf K} {t : Tan K} {N : ℕ} {D : ℕ → ℕ → K}

theorem pair_forceS (M C : ℕ) (sc dv : ℕ → K) (A Aa : ℕ → ℕ → ℕ → K) (i : ℕ) (tsc : K)
    (h : tsc = ∑ e ∈ c.edg i, dv e * ((∑ a ∈ Finset.range 3, d.X e a * D e a) / d.R e)) :
    (∑ lm ∈ Finset.range M, ∑ k ∈ Finset.range C, Aa i lm k * A i lm k) / sc i * tsc
      = ∑ e ∈ c.edg i, ∑ a ∈ Finset.range 3, forceS M C d sc dv A Aa i e a * D e a := by
  unfold forceS
  rw [h, Finset.mul_sum]
  refine Finset.sum_congr rfl (fun e _ => ?_)
  rw [Finset.sum_div (Finset.range 3), Finset.mul_sum, Finset.mul_sum]
  exact Finset.sum_congr rfl (fun a _ => by ring)

/-- The force term is minus adjoint times tangent. -/
theorem pair_term (adj r Rd y h R xD : K) (X yg Dv : ℕ → K) (hx : xD = ∑ a ∈ Finset.range 3, X a * Dv a) :
    ∑ a ∈ Finset.range 3, forceTerm adj (X a) r Rd y h R (yg a) * Dv a
      = -(adj * ((Rd * (xD / r) * y + R * ∑ a ∈ Finset.range 3, yg a * Dv a) * h)) := by
  subst hx
  simp only [forceTerm, Finset.sum_range_succ, Finset.sum_range_zero]
  ring

theorem pair_force0 (ht : TanOk c d t N D) (B : ℕ → ℕ → ℕ → K) {i : ℕ} (hi : i < N) :
    ∑ lm ∈ Finset.range W.M, ∑ k ∈ Finset.range W.C, B i lm k * ta0 W c t i lm k
      = -∑ e ∈ c.edg i, ∑ a ∈ Finset.range 3, force0 W c d B i e a * D e a := by
  have h1 : ∀ lm, ∑ k ∈ Finset.range W.C, B i lm k * ta0 W c t i lm k
      = ∑ k ∈ Finset.range W.C, phi0a W c B i lm k * tphi0 W c t i lm k := fun lm => by
    unfold ta0 phi0a
    exact sum_transpose _ _ _ _ _
  simp only [h1]
  unfold tphi0 force0
  simp only [Finset.mul_sum, Finset.sum_mul (s := Finset.range W.M), Finset.sum_mul (s := Finset.range W.C)]
  rw [← Finset.sum_neg_distrib]
  -- bring the edge sum to the front
  have h2 : ∑ lm ∈ Finset.range W.M, ∑ k ∈ Finset.range W.C, ∑ e ∈ c.edg i, phi0a W c B i lm k *
      ((t.R0 e (Nat.sqrt lm) k * c.Y e lm + c.R0 e (Nat.sqrt lm) k * t.Y e lm) * W.emb (c.nty e) k)
      = ∑ e ∈ c.edg i, ∑ lm ∈ Finset.range W.M, ∑ k ∈ Finset.range W.C, phi0a W c B i lm k *
      ((t.R0 e (Nat.sqrt lm) k * c.Y e lm + c.R0 e (Nat.sqrt lm) k * t.Y e lm) * W.emb (c.nty e) k) := by
    rw [Finset.sum_comm' (s := c.edg i) (t' := Finset.range W.M) (s' := fun _ => c.edg i) (t := fun _ => Finset.range W.M)
      (by intros; tauto)]
    refine Finset.sum_congr rfl (fun lm _ => ?_)
    rw [Finset.sum_comm]
  rw [h2]
  refine Finset.sum_congr rfl (fun e he => ?_)
  rw [Finset.sum_comm (s := Finset.range 3), ← Finset.sum_neg_distrib]
  refine Finset.sum_congr rfl (fun lm _ => ?_)
  rw [Finset.sum_comm (s := Finset.range 3), ← Finset.sum_neg_distrib]
  refine Finset.sum_congr rfl (fun k _ => ?_)
  rw [pair_term _ _ _ _ _ _ _ (d.X e) (fun a => d.dY e a lm) (D e) rfl, neg_neg, ht.R0 i hi e he, ht.Y i hi e he]

/-- First layer. -/
theorem pair1 (ht : TanOk c d t N D) (Ha : ℕ → ℕ → ℕ → K) {i : ℕ} (hi : i < N) :
    ∑ LM ∈ Finset.range W.LM, ∑ k ∈ Finset.range W.C, Ha i LM k * th1 W c t i LM k
      = -∑ e ∈ c.edg i, ∑ a ∈ Finset.range 3, forceL1 W c d Ha i e a * D e a := by
  have h1 : ∀ LM, ∑ k ∈ Finset.range W.C, Ha i LM k * th1 W c t i LM k
      = ∑ k ∈ Finset.range W.C, (∑ k' ∈ Finset.range W.C, Ha i LM k' * W.lin1 (Nat.sqrt LM) k k') * tm0 W c t i LM k :=
    fun LM => by unfold th1; exact sum_transpose _ _ _ _ _
  have h2 : ∑ LM ∈ Finset.range W.LM, ∑ k ∈ Finset.range W.C,
      (∑ k' ∈ Finset.range W.C, Ha i LM k' * W.lin1 (Nat.sqrt LM) k k') * tm0 W c t i LM k
      = ∑ lm ∈ Finset.range W.M, ∑ k ∈ Finset.range W.C, A0adj W c Ha i lm k * ta0s W c t i lm k := by
    unfold tm0 A0adj
    simp only [Finset.mul_sum, Finset.sum_mul]
    rw [Finset.sum_comm (s := Finset.range W.M)]
    rw [Finset.sum_comm (s := Finset.range W.LM)]
    refine Finset.sum_congr rfl (fun k _ => ?_)
    rw [Finset.sum_comm (s := Finset.range W.LM)]
    refine Finset.sum_congr rfl (fun lm _ => ?_)
    refine Finset.sum_congr rfl (fun LM _ => ?_)
    refine Finset.sum_congr rfl (fun k' _ => ?_)
    ring
  simp only [h1]
  rw [h2]
  unfold ta0s
  rw [pair_scale, pair_forceS W.M W.C c.s0 d.ds0 (a0s W c) (A0adj W c Ha) i (t.s0 i) (ht.s0 i hi),
    pair_force0 ht (fun i lm k => A0adj W c Ha i lm k / c.s0 i) hi, ← neg_add', ← Finset.sum_add_distrib]
  congr 1
  refine Finset.sum_congr rfl (fun e _ => ?_)
  rw [← Finset.sum_add_distrib]
  refine Finset.sum_congr rfl (fun a _ => ?_)
  unfold forceL1
  ring


/-- Collecting the Clebsch-Gordan entries by output and by input. -/
theorem pair_cg (hout : ∀ p < W.nCG, W.cgOut p < W.nOut) (hin : ∀ p < W.nCG, W.cgIn p < W.nQ)
    (B : ℕ → ℕ → ℕ → K) (x : ℕ → ℕ → K) (i k : ℕ) :
    ∑ o ∈ Finset.range W.nOut, B i o k * (∑ p ∈ Finset.range W.nCG, if W.cgOut p = o then W.cgC p * x (W.cgIn p) k else 0)
      = ∑ q ∈ Finset.range W.nQ, dphi1r W B i q k * x q k := by
  unfold dphi1r
  simp only [Finset.mul_sum, Finset.sum_mul]
  rw [Finset.sum_comm, Finset.sum_comm (s := Finset.range W.nQ)]
  refine Finset.sum_congr rfl (fun p hp => ?_)
  have hp := Finset.mem_range.mp hp
  simp only [mul_ite, mul_zero, ite_mul, zero_mul]
  rw [Finset.sum_ite_eq, Finset.sum_ite_eq, if_pos (Finset.mem_range.mpr (hout p hp)),
    if_pos (Finset.mem_range.mpr (hin p hp))]
  ring

theorem pair_a1 (B : ℕ → ℕ → ℕ → K) (x : ℕ → ℕ → ℕ → K) (i : ℕ) :
    ∑ lm ∈ Finset.range W.M, ∑ k ∈ Finset.range W.C, B i lm k *
      (∑ e ∈ Finset.range (W.nE (Nat.sqrt lm)), ∑ k' ∈ Finset.range W.C,
        x i (W.base (Nat.sqrt lm) + (lm - Nat.sqrt lm * Nat.sqrt lm) * W.nE (Nat.sqrt lm) + e) k' * W.mix1 (Nat.sqrt lm) e k' k)
      = ∑ o ∈ Finset.range W.nOut, ∑ k ∈ Finset.range W.C, phi1a W B i o k * x i o k := by
  rw [sum_out]
  unfold Net.M
  rw [← sum_lm W.lmax (fun l lm => ∑ k ∈ Finset.range W.C, B i lm k *
      (∑ e ∈ Finset.range (W.nE l), ∑ k' ∈ Finset.range W.C,
        x i (W.base l + (lm - l * l) * W.nE l + e) k' * W.mix1 l e k' k))]
  refine Finset.sum_congr rfl (fun l hl => Finset.sum_congr rfl (fun mm hmm => ?_))
  have hl := Finset.mem_range.mp hl
  have hmm := Finset.mem_range.mp hmm
  simp only [Nat.add_sub_cancel_left]
  have e1 : ∀ k, B i (l * l + mm) k * (∑ e ∈ Finset.range (W.nE l), ∑ k' ∈ Finset.range W.C,
        x i (W.base l + mm * W.nE l + e) k' * W.mix1 l e k' k)
      = ∑ e ∈ Finset.range (W.nE l), B i (l * l + mm) k * ∑ k' ∈ Finset.range W.C,
        x i (W.base l + mm * W.nE l + e) k' * W.mix1 l e k' k := fun k => Finset.mul_sum _ _ _
  simp only [e1]
  rw [Finset.sum_comm]
  refine Finset.sum_congr rfl (fun e he => ?_)
  have he := Finset.mem_range.mp he
  rw [sum_transpose]
  refine Finset.sum_congr rfl (fun k' _ => ?_)
  rw [phi1a_eq W B hl hmm he]

theorem pair_force1 (ht : TanOk c d t N D) (H H' Dr : ℕ → ℕ → ℕ → K) {i : ℕ} (hi : i < N) :
    ∑ q ∈ Finset.range W.nQ, ∑ k ∈ Finset.range W.C, Dr i q k * tphi1r W c t H H' i q k
      = -(∑ e ∈ c.edg i, ∑ a ∈ Finset.range 3, force1 W c d H Dr i e a * D e a)
        + ∑ e ∈ c.edg i, ∑ q ∈ Finset.range W.nQ, ∑ k ∈ Finset.range W.C,
            c.R1 e (W.qp q) k * c.Y e (W.q1 q) * Dr i q k * H' (c.nbr e) (W.q2 q) k := by
  unfold tphi1r force1
  rw [← Finset.sum_neg_distrib, ← Finset.sum_add_distrib]
  simp only [Finset.mul_sum, Finset.sum_mul (s := Finset.range W.nQ), Finset.sum_mul (s := Finset.range W.C)]
  have h2 : ∀ f : ℕ → ℕ → ℕ → K, ∑ q ∈ Finset.range W.nQ, ∑ k ∈ Finset.range W.C, ∑ e ∈ c.edg i, f q k e
      = ∑ e ∈ c.edg i, ∑ q ∈ Finset.range W.nQ, ∑ k ∈ Finset.range W.C, f q k e := fun f => by
    rw [Finset.sum_comm (s := c.edg i)]
    refine Finset.sum_congr rfl (fun q _ => ?_)
    rw [Finset.sum_comm]
  rw [h2]
  refine Finset.sum_congr rfl (fun e he => ?_)
  rw [Finset.sum_comm (s := Finset.range 3), ← Finset.sum_neg_distrib, ← Finset.sum_add_distrib]
  refine Finset.sum_congr rfl (fun q _ => ?_)
  rw [Finset.sum_comm (s := Finset.range 3), ← Finset.sum_neg_distrib, ← Finset.sum_add_distrib]
  refine Finset.sum_congr rfl (fun k _ => ?_)
  rw [pair_term _ _ _ _ _ _ _ (d.X e) (fun a => d.dY e a (W.q1 q)) (D e) rfl, neg_neg, ht.R1 i hi e he, ht.Y i hi e he]
  ring

/-- `adj1` is the transpose of the dependence on the neighbours' features. -/
theorem pair_adj1 {NH : ℕ} (hn : ∀ i < N, ∀ e ∈ c.edg i, c.nbr e < NH) (hq : ∀ q < W.nQ, W.q2 q < W.LM)
    (H' Dr : ℕ → ℕ → ℕ → K) :
    ∑ i ∈ Finset.range N, ∑ e ∈ c.edg i, ∑ q ∈ Finset.range W.nQ, ∑ k ∈ Finset.range W.C,
        c.R1 e (W.qp q) k * c.Y e (W.q1 q) * Dr i q k * H' (c.nbr e) (W.q2 q) k
      = ∑ v ∈ Finset.range NH, ∑ LM ∈ Finset.range W.LM, ∑ k ∈ Finset.range W.C, adj1 W c N Dr v LM k * H' v LM k := by
  have e1 : ∀ v LM k, adj1 W c N Dr v LM k * H' v LM k
      = ∑ i ∈ Finset.range N, ∑ e ∈ c.edg i, ∑ q ∈ Finset.range W.nQ,
        if v = c.nbr e then if LM = W.q2 q then c.R1 e (W.qp q) k * c.Y e (W.q1 q) * Dr i q k * H' v LM k else 0 else 0 := by
    intro v LM k
    unfold adj1
    simp only [Finset.sum_mul]
    refine Finset.sum_congr rfl (fun i _ => Finset.sum_congr rfl (fun e _ => Finset.sum_congr rfl (fun q _ => ?_)))
    rw [ite_and]
    split_ifs <;> simp
  simp only [e1]
  have e2 : ∀ f : ℕ → ℕ → ℕ → ℕ → K, ∑ v ∈ Finset.range NH, ∑ LM ∈ Finset.range W.LM, ∑ k ∈ Finset.range W.C,
      ∑ i ∈ Finset.range N, f v LM k i = ∑ i ∈ Finset.range N, ∑ k ∈ Finset.range W.C, ∑ v ∈ Finset.range NH,
      ∑ LM ∈ Finset.range W.LM, f v LM k i := by
    intro f
    calc _ = ∑ v ∈ Finset.range NH, ∑ LM ∈ Finset.range W.LM, ∑ i ∈ Finset.range N, ∑ k ∈ Finset.range W.C, f v LM k i :=
          Finset.sum_congr rfl (fun v _ => Finset.sum_congr rfl (fun LM _ => Finset.sum_comm))
      _ = ∑ v ∈ Finset.range NH, ∑ i ∈ Finset.range N, ∑ LM ∈ Finset.range W.LM, ∑ k ∈ Finset.range W.C, f v LM k i :=
          Finset.sum_congr rfl (fun v _ => Finset.sum_comm)
      _ = ∑ i ∈ Finset.range N, ∑ v ∈ Finset.range NH, ∑ LM ∈ Finset.range W.LM, ∑ k ∈ Finset.range W.C, f v LM k i :=
          Finset.sum_comm
      _ = ∑ i ∈ Finset.range N, ∑ v ∈ Finset.range NH, ∑ k ∈ Finset.range W.C, ∑ LM ∈ Finset.range W.LM, f v LM k i :=
          Finset.sum_congr rfl (fun i _ => Finset.sum_congr rfl (fun v _ => Finset.sum_comm))
      _ = _ := Finset.sum_congr rfl (fun i _ => Finset.sum_comm)
  rw [e2]
  refine Finset.sum_congr rfl (fun i hi => ?_)
  have hi := Finset.mem_range.mp hi
  have e3 : ∀ (s : Finset ℕ) (f : ℕ → ℕ → ℕ → ℕ → K), ∑ k ∈ Finset.range W.C, ∑ v ∈ Finset.range NH,
      ∑ LM ∈ Finset.range W.LM, ∑ e ∈ s, f k v LM e = ∑ e ∈ s, ∑ k ∈ Finset.range W.C, ∑ v ∈ Finset.range NH,
      ∑ LM ∈ Finset.range W.LM, f k v LM e := by
    intro s f
    rw [Finset.sum_comm (s := s)]
    refine Finset.sum_congr rfl (fun k _ => ?_)
    rw [Finset.sum_comm (s := s)]
    refine Finset.sum_congr rfl (fun v _ => ?_)
    rw [Finset.sum_comm (s := s)]
  rw [e3]
  refine Finset.sum_congr rfl (fun e he => ?_)
  rw [e3]
  refine Finset.sum_congr rfl (fun q hq' => Finset.sum_congr rfl (fun k _ => ?_))
  have hq' := Finset.mem_range.mp hq'
  rw [Finset.sum_eq_single (c.nbr e) (fun v _ hv => by simp [hv])
    (fun h => absurd (Finset.mem_range.mpr (hn i hi e he)) h)]
  simp only [if_true]
  rw [Finset.sum_ite_eq', if_pos (Finset.mem_range.mpr (hq q hq'))]

/-- Second layer. -/
theorem pair2 (ht : TanOk c d t N D) {NH : ℕ} (hN : N ≤ NH) (hL : 0 < W.LM)
    (hn : ∀ i < N, ∀ e ∈ c.edg i, c.nbr e < NH) (hq : ∀ q < W.nQ, W.q2 q < W.LM)
    (hout : ∀ p < W.nCG, W.cgOut p < W.nOut) (hin : ∀ p < W.nCG, W.cgIn p < W.nQ)
    (H H' : ℕ → ℕ → ℕ → K) (G : (ℕ → K) → ℕ → K) :
    ∑ i ∈ Finset.range N, tE W c t H H' G i
      = (∑ v ∈ Finset.range NH, ∑ LM ∈ Finset.range W.LM, ∑ k ∈ Finset.range W.C, H1adj W c N H G v LM k * H' v LM k)
        - ∑ i ∈ Finset.range N, ∑ e ∈ c.edg i, ∑ a ∈ Finset.range 3, forceL2 W c d H G i e a * D e a := by
  -- the part through the product basis
  have hA : ∀ i < N, ∑ k ∈ Finset.range W.C, G (h2 W c H i) k * (∑ k' ∈ Finset.range W.C, tm1 W c t H H' i k' * W.lin2m k' k)
      = -(∑ e ∈ c.edg i, ∑ a ∈ Finset.range 3, forceL2 W c d H G i e a * D e a)
        + ∑ e ∈ c.edg i, ∑ q ∈ Finset.range W.nQ, ∑ k ∈ Finset.range W.C,
            c.R1 e (W.qp q) k * c.Y e (W.q1 q) * Dr1 W c H G i q k * H' (c.nbr e) (W.q2 q) k := by
    intro i hi
    have e1 : ∑ k ∈ Finset.range W.C, G (h2 W c H i) k * (∑ k' ∈ Finset.range W.C, tm1 W c t H H' i k' * W.lin2m k' k)
        = ∑ lm ∈ Finset.range W.M, ∑ k ∈ Finset.range W.C, A1adj W c H G i lm k * ta1s W c t H H' i lm k := by
      rw [sum_transpose]
      unfold tm1 A1adj M1adj H2adj
      simp only [Finset.mul_sum, Finset.sum_mul]
      rw [Finset.sum_comm (s := Finset.range W.M)]
      refine Finset.sum_congr rfl (fun k _ => Finset.sum_congr rfl (fun lm _ => Finset.sum_congr rfl (fun k' _ => ?_)))
      ring
    rw [e1]
    unfold ta1s
    rw [pair_scale, pair_forceS W.M W.C c.s1 d.ds1 (a1s W c H) (A1adj W c H G) i (t.s1 i) (ht.s1 i hi)]
    have e2 : ∑ lm ∈ Finset.range W.M, ∑ k ∈ Finset.range W.C, A1adj W c H G i lm k / c.s1 i * ta1 W c t H H' i lm k
        = ∑ q ∈ Finset.range W.nQ, ∑ k ∈ Finset.range W.C, Dr1 W c H G i q k * tphi1r W c t H H' i q k := by
      unfold ta1
      rw [pair_a1 (fun i lm k => A1adj W c H G i lm k / c.s1 i) (tphi1 W c t H H'), Finset.sum_comm,
        Finset.sum_comm (s := Finset.range W.nQ)]
      refine Finset.sum_congr rfl (fun k _ => ?_)
      unfold tphi1 Dr1
      exact pair_cg hout hin _ (fun q k => tphi1r W c t H H' i q k) i k
    rw [e2, pair_force1 ht H H' _ hi]
    unfold forceL2
    simp only [add_mul, Finset.sum_add_distrib]
    ring
  have hB : ∀ i < N, tE W c t H H' G i = (∑ k ∈ Finset.range W.C, H1adj0 W c N H G i 0 k * H' i 0 k)
      + (-(∑ e ∈ c.edg i, ∑ a ∈ Finset.range 3, forceL2 W c d H G i e a * D e a)
        + ∑ e ∈ c.edg i, ∑ q ∈ Finset.range W.nQ, ∑ k ∈ Finset.range W.C,
            c.R1 e (W.qp q) k * c.Y e (W.q1 q) * Dr1 W c H G i q k * H' (c.nbr e) (W.q2 q) k) := by
    intro i hi
    rw [← hA i hi]
    unfold tE th2
    simp only [mul_add, Finset.sum_add_distrib]
    rw [sum_transpose, ← add_assoc]
    congr 1
    rw [← Finset.sum_add_distrib]
    refine Finset.sum_congr rfl (fun k _ => ?_)
    unfold H1adj0 H2adj
    simp only [hi, and_self, if_true]
    rw [add_mul]
    congr 2
    exact Finset.sum_congr rfl (fun k' _ => mul_comm _ _)
  rw [Finset.sum_congr rfl (fun i hi => hB i (Finset.mem_range.mp hi))]
  simp only [Finset.sum_add_distrib]
  rw [pair_adj1 hn hq]
  unfold H1adj
  simp only [add_mul, Finset.sum_add_distrib, Finset.sum_neg_distrib]
  have hC : ∑ v ∈ Finset.range NH, ∑ LM ∈ Finset.range W.LM, ∑ k ∈ Finset.range W.C, H1adj0 W c N H G v LM k * H' v LM k
      = ∑ i ∈ Finset.range N, ∑ k ∈ Finset.range W.C, H1adj0 W c N H G i 0 k * H' i 0 k := by
    have z : ∀ v LM k, ¬(v < N ∧ LM = 0) → H1adj0 W c N H G v LM k = 0 := by
      intro v LM k h
      unfold H1adj0
      rw [if_neg h, if_neg h, add_zero]
    rw [← Finset.sum_subset (Finset.range_subset_range.mpr hN) (fun v _ hv => ?_)]
    · refine Finset.sum_congr rfl (fun v _ => ?_)
      rw [Finset.sum_eq_single 0 (fun LM _ hLM => ?_) (fun h => absurd (Finset.mem_range.mpr hL) h)]
      exact Finset.sum_eq_zero (fun k _ => by rw [z v LM k (fun h => hLM h.2), zero_mul])
    · refine Finset.sum_eq_zero (fun LM _ => Finset.sum_eq_zero (fun k _ => ?_))
      rw [z v LM k (fun h => hv (Finset.mem_range.mpr h.1)), zero_mul]
  rw [hC]
  ring

end pairings

end Verif.MACE
