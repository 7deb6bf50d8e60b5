import Verif.Spec.Rotation
import Verif.Lemmas.MACE.Join
import Mathlib.LinearAlgebra.Matrix.NonsingularInverse

/-! # Rotated configurations -/

namespace Verif.MACE
open Verif.Spec

theorem polynomial_congr {cs : List ℝ} {ms : List (List ℕ)} {x y : ℕ → ℝ} (h : ∀ m ∈ ms, ∀ v ∈ m, x v = y v) :
    polynomial cs ms x = polynomial cs ms y := by
  unfold polynomial
  congr 1
  refine List.map_congr_left (fun q hq => ?_)
  unfold monomial
  rw [List.map_congr_left (h q.1 (List.of_mem_zip hq).1)]

theorem sqrt_block {l m : ℕ} (hm : m < 2 * l + 1) : Nat.sqrt (l * l + m) = l := by
  symm
  rw [Nat.eq_sqrt]
  constructor
  · omega
  · nlinarith

theorem sum_block {l n : ℕ} (hl : l < n) {g : ℕ → ℝ} (hg : ∀ lm, Nat.sqrt lm ≠ l → g lm = 0) :
    ∑ lm ∈ Finset.range (n * n), g lm = ∑ m ∈ Finset.range (2 * l + 1), g (l * l + m) := by
  have e : ∑ m ∈ Finset.range (2 * l + 1), g (l * l + m)
      = ∑ lm ∈ (Finset.range (2 * l + 1)).map (addLeftEmbedding (l * l)), g lm := by
    rw [Finset.sum_map]; rfl
  rw [e]
  symm
  refine Finset.sum_subset (fun x hx => ?_) (fun x hx hn => hg x (fun hs => hn ?_))
  · obtain ⟨m, hm, rfl⟩ := Finset.mem_map.mp hx
    rw [Finset.mem_range] at hm ⊢
    show l * l + m < n * n
    nlinarith
  · have h1 := Nat.sqrt_le x
    have h2 := Nat.lt_succ_sqrt x
    rw [hs] at h1 h2
    refine Finset.mem_map.mpr ⟨x - l * l, ?_, ?_⟩
    · rw [Finset.mem_range]
      simp only [Nat.succ_eq_add_one] at h2
      have : (l + 1) * (l + 1) = l * l + (2 * l + 1) := by ring
      omega
    · show l * l + (x - l * l) = x
      omega

section net
variable {W : Net ℝ} {nT N : ℕ} {D : ℕ → ℕ → ℝ} {c : Conf ℝ} {Y' : ℕ → ℕ → ℝ}

/-- `c` with other harmonics. -/
def withY (c : Conf ℝ) (Y' : ℕ → ℕ → ℝ) : Conf ℝ := { c with Y := Y' }

theorem D_zero (hD : Intertwines W nT D) {n : ℕ} (hn : 0 < n) (x : ℕ → ℝ) : act D n x 0 = x 0 := by
  unfold act
  rw [Finset.sum_eq_single 0]
  · rw [hD.one, one_mul]
  · intro b _ hb
    rw [hD.block 0 b (by
      intro h
      have : Nat.sqrt b = 0 := by rw [← h]; rfl
      exact hb (Nat.sqrt_eq_zero.mp this)), zero_mul]
  · intro h
    exact absurd (Finset.mem_range.mpr hn) h

/-- A sum of terms whose dependence on the index is through its angular momentum commutes with the rotation. -/
theorem act_lin (hD : Intertwines W nT D) {n lm : ℕ} {S : Finset ℕ} (x : ℕ → ℕ → ℝ) (w : ℕ → ℕ → ℝ) :
    ∑ k ∈ S, act D n (fun lm' => x lm' k) lm * w (Nat.sqrt lm) k
      = act D n (fun lm' => ∑ k ∈ S, x lm' k * w (Nat.sqrt lm') k) lm := by
  unfold act
  simp only [Finset.sum_mul, Finset.mul_sum]
  rw [Finset.sum_comm]
  refine Finset.sum_congr rfl (fun b _ => Finset.sum_congr rfl (fun k _ => ?_))
  by_cases h : Nat.sqrt lm = Nat.sqrt b
  · rw [h]; ring
  · rw [hD.block _ _ h]; ring

variable (hD : Intertwines W nT D) (hW : NetOk W) (hty : ∀ i < N, c.typ i < nT)
  (hY : ∀ i < N, ∀ e ∈ c.edg i, ∀ lm < W.M, Y' e lm = act D W.M (c.Y e) lm) (hnb : ∀ i < N, ∀ e ∈ c.edg i, c.nbr e < N)
include hD hY

theorem rot_phi0 {i lm k : ℕ} (hi : i < N) (hlm : lm < W.M) :
    phi0 W (withY c Y') i lm k = act D W.M (fun lm' => phi0 W c i lm' k) lm := by
  have h := act_lin hD (n := W.M) (lm := lm) (S := c.edg i) (fun lm' e => c.Y e lm')
    (fun l e => c.R0 e l k * W.emb (c.nty e) k)
  have e1 : phi0 W (withY c Y') i lm k
      = ∑ e ∈ c.edg i, act D W.M (fun lm' => c.Y e lm') lm * (c.R0 e (Nat.sqrt lm) k * W.emb (c.nty e) k) := by
    refine Finset.sum_congr rfl (fun e he => ?_)
    show c.R0 e (Nat.sqrt lm) k * Y' e lm * W.emb (c.nty e) k = _
    rw [hY i hi e he lm hlm]
    ring
  rw [e1, h]
  congr 1
  funext lm'
  refine Finset.sum_congr rfl (fun e _ => ?_)
  ring

theorem rot_a0s {i lm k : ℕ} (hi : i < N) (hlm : lm < W.M) :
    a0s W (withY c Y') i lm k = act D W.M (fun lm' => a0s W c i lm' k) lm := by
  have e1 : a0 W (withY c Y') i lm k = act D W.M (fun lm' => a0 W c i lm' k) lm := by
    rw [show (fun lm' => a0 W c i lm' k) = fun lm' => ∑ k' ∈ Finset.range W.C, phi0 W c i lm' k' *
      (fun l k' => W.mix0 (c.typ i) l k' k) (Nat.sqrt lm') k' from rfl,
      ← act_lin hD (fun lm' k' => phi0 W c i lm' k') (fun l k' => W.mix0 (c.typ i) l k' k)]
    refine Finset.sum_congr rfl (fun k' _ => ?_)
    rw [rot_phi0 hD hY hi hlm]
    rfl
  unfold a0s
  rw [e1]
  unfold act
  rw [Finset.sum_div]
  refine Finset.sum_congr rfl (fun b _ => ?_)
  rw [mul_div_assoc]
  rfl

include hW hty

theorem rot_h1 {i LM k : ℕ} (hi : i < N) (hLM : LM < W.LM) :
    h1 W (withY c Y') i LM k = act D W.LM (fun LM' => h1 W c i LM' k) LM := by
  have e1 : ∀ k' < W.C, m0 W (withY c Y') i LM k' = act D W.LM (fun LM' => m0 W c i LM' k') LM := by
    intro k' hk'
    have := hD.prod0 _ (hty i hi) LM hLM k' hk' (fun lm => a0s W c i lm k')
    unfold m0
    rw [← this]
    refine polynomial_congr (fun m hm v hv => ?_)
    exact rot_a0s hD hY hi (hW.mono0 LM hLM m hm v hv)
  rw [show (fun LM' => h1 W c i LM' k) = fun LM' => ∑ k' ∈ Finset.range W.C, m0 W c i LM' k' *
      (fun l k' => W.lin1 l k' k) (Nat.sqrt LM') k' from rfl,
    ← act_lin hD (fun LM' k' => m0 W c i LM' k') (fun l k' => W.lin1 l k' k)]
  refine Finset.sum_congr rfl (fun k' hk' => ?_)
  rw [e1 k' (Finset.mem_range.mp hk')]

omit hD hW hty hY in
theorem phi1_coupled (H : ℕ → ℕ → ℕ → ℝ) (i o k : ℕ) :
    phi1 W c H i o k = ∑ e ∈ c.edg i, coupled W (fun p => c.R1 e p k) (c.Y e) (fun b => H (c.nbr e) b k) o := by
  unfold phi1 phi1r coupled
  rw [Finset.sum_comm]
  refine Finset.sum_congr rfl (fun p _ => ?_)
  by_cases h : W.cgOut p = o
  · simp only [if_pos h, Finset.mul_sum]
  · simp only [if_neg h, Finset.sum_const_zero]

omit hD hY hty in
theorem coupled_congr {r y h y' h' : ℕ → ℝ} {o : ℕ} (hy : ∀ b < W.M, y b = y' b) (hh : ∀ b < W.LM, h b = h' b) :
    coupled W r y h o = coupled W r y' h' o := by
  refine Finset.sum_congr rfl (fun p hp => ?_)
  have hq := hW.cgIn p (Finset.mem_range.mp hp)
  rw [hy _ (hW.q1 _ hq), hh _ (hW.q2 _ hq)]

include hnb

theorem rot_phi1 {i l m e k : ℕ} (hi : i < N) (hl : l ≤ W.lmax) (hm : m < 2 * l + 1) (he : e < W.nE l) :
    phi1 W (withY c Y') (h1 W (withY c Y')) i (W.base l + m * W.nE l + e) k
      = ∑ m' ∈ Finset.range (2 * l + 1), D (l * l + m) (l * l + m') * phi1 W c (h1 W c) i (W.base l + m' * W.nE l + e) k := by
  simp only [phi1_coupled, Finset.mul_sum]
  rw [Finset.sum_comm]
  refine Finset.sum_congr rfl (fun x hx => ?_)
  rw [← hD.couple l hl m hm e he]
  refine coupled_congr hW (fun b hb => ?_) (fun b hb => ?_)
  · exact hY i hi x hx b hb
  · exact rot_h1 hD hW hty hY (hnb i hi x hx) hb

theorem rot_a1s {i lm k : ℕ} (hi : i < N) (hlm : lm < W.M) :
    a1s W (withY c Y') (h1 W (withY c Y')) i lm k = act D W.M (fun lm' => a1s W c (h1 W c) i lm' k) lm := by
  obtain ⟨l, m, hm, rfl⟩ : ∃ l m, m < 2 * l + 1 ∧ lm = l * l + m := by
    have h1 := Nat.sqrt_le lm
    have h2 := Nat.lt_succ_sqrt lm
    simp only [Nat.succ_eq_add_one] at h2
    have : (Nat.sqrt lm + 1) * (Nat.sqrt lm + 1) = Nat.sqrt lm * Nat.sqrt lm + (2 * Nat.sqrt lm + 1) := by ring
    exact ⟨Nat.sqrt lm, lm - Nat.sqrt lm * Nat.sqrt lm, by omega, by omega⟩
  have hl : l < W.lmax + 1 := by
    by_contra hc
    have : (W.lmax + 1) * (W.lmax + 1) ≤ l * l := Nat.mul_le_mul (by omega) (by omega)
    have h2 : l * l + m < (W.lmax + 1) * (W.lmax + 1) := hlm
    omega
  have ha : ∀ (d : Conf ℝ) H m, m < 2 * l + 1 → a1 W d H i (l * l + m) k = ∑ e ∈ Finset.range (W.nE l), ∑ k' ∈ Finset.range W.C,
      phi1 W d H i (W.base l + m * W.nE l + e) k' * W.mix1 l e k' k := by
    intro d H m hm
    unfold a1
    rw [sqrt_block hm, Nat.add_sub_cancel_left]
  have e1 : a1 W (withY c Y') (h1 W (withY c Y')) i (l * l + m) k
      = ∑ m' ∈ Finset.range (2 * l + 1), D (l * l + m) (l * l + m') * a1 W c (h1 W c) i (l * l + m') k := by
    rw [ha _ _ m hm]
    have : ∀ m' ∈ Finset.range (2 * l + 1), D (l * l + m) (l * l + m') * a1 W c (h1 W c) i (l * l + m') k
        = ∑ e ∈ Finset.range (W.nE l), ∑ k' ∈ Finset.range W.C,
          D (l * l + m) (l * l + m') * phi1 W c (h1 W c) i (W.base l + m' * W.nE l + e) k' * W.mix1 l e k' k := by
      intro m' hm'
      rw [ha _ _ m' (Finset.mem_range.mp hm'), Finset.mul_sum]
      refine Finset.sum_congr rfl (fun e _ => ?_)
      rw [Finset.mul_sum]
      refine Finset.sum_congr rfl (fun k' _ => ?_)
      ring
    rw [Finset.sum_congr rfl this]
    symm
    rw [Finset.sum_comm]
    refine Finset.sum_congr rfl (fun e he => ?_)
    rw [Finset.sum_comm]
    refine Finset.sum_congr rfl (fun k' _ => ?_)
    rw [rot_phi1 hD hW hty hY hnb hi (by omega) hm (Finset.mem_range.mp he), Finset.sum_mul]
  have e2 : act D W.M (fun lm' => a1s W c (h1 W c) i lm' k) (l * l + m)
      = ∑ m' ∈ Finset.range (2 * l + 1), D (l * l + m) (l * l + m') * a1s W c (h1 W c) i (l * l + m') k := by
    refine sum_block (n := W.lmax + 1) hl (fun b hb => ?_)
    rw [hD.block _ _ (by rw [sqrt_block hm]; exact fun h => hb h.symm), zero_mul]
  rw [e2]
  unfold a1s
  rw [e1, Finset.sum_div]
  refine Finset.sum_congr rfl (fun m' _ => ?_)
  rw [mul_div_assoc]
  rfl

/-- The energies do not change. -/
theorem rot_energy {i : ℕ} (hi : i < N) : energy W (withY c Y') i = energy W c i := by
  have e0 : ∀ k, h1 W (withY c Y') i 0 k = h1 W c i 0 k := by
    intro k
    have hp : 0 < W.LM := Nat.mul_pos (Nat.succ_pos _) (Nat.succ_pos _)
    rw [rot_h1 hD hW hty hY hi hp, D_zero hD hp]
  have e1 : ∀ k < W.C, m1 W (withY c Y') (h1 W (withY c Y')) i k = m1 W c (h1 W c) i k := by
    intro k hk
    have := hD.prod1 _ (hty i hi) k hk (fun lm => a1s W c (h1 W c) i lm k)
    unfold m1
    rw [← this]
    refine polynomial_congr (fun m hm v hv => ?_)
    exact rot_a1s hD hW hty hY hnb hi (hW.mono1 m hm v hv)
  have e2 : h2 W (withY c Y') (h1 W (withY c Y')) i = h2 W c (h1 W c) i := by
    funext k
    unfold h2
    refine congr_arg₂ _ (Finset.sum_congr rfl (fun k' _ => ?_)) (Finset.sum_congr rfl (fun k' hk' => ?_))
    · rw [e0]; rfl
    · rw [e1 k' (Finset.mem_range.mp hk')]
  unfold energy nodeE
  rw [e2]
  simp only [e0]
  rfl

end net

section rotate
variable {Q : ℕ → ℕ → ℝ} {X : ℕ → ℕ → ℝ}

theorem orthonormal_rows (hQ : Orthonormal3 Q) {a c : ℕ} (ha : a < 3) (hc : c < 3) :
    ∑ b ∈ Finset.range 3, Q a b * Q c b = if a = c then 1 else 0 := by
  let A : Matrix (Fin 3) (Fin 3) ℝ := fun i j => Q i j
  have h1 : A.transpose * A = 1 := by
    ext b c
    rw [Matrix.mul_apply, Matrix.one_apply]
    have := hQ b b.2 c c.2
    rw [Finset.sum_range] at this
    simp only [Matrix.transpose_apply, A, Fin.ext_iff]
    exact this
  have h2 : A * A.transpose = 1 := mul_eq_one_comm.mp h1
  have h3 := congr_fun (congr_fun h2 ⟨a, ha⟩) ⟨c, hc⟩
  rw [Matrix.mul_apply, Matrix.one_apply] at h3
  rw [Finset.sum_range]
  simp only [Matrix.transpose_apply, A, Fin.ext_iff] at h3
  exact h3

theorem len_rotate (hQ : Orthonormal3 Q) (e : ℕ) : len (rotate Q X e) = len (X e) := by
  unfold len
  congr 1
  have h : ∀ b c, b < 3 → c < 3 → Q 0 b * Q 0 c + Q 1 b * Q 1 c + Q 2 b * Q 2 c = if b = c then 1 else 0 := by
    intro b c hb hc
    have := hQ b hb c hc
    rw [← this]
    simp only [Finset.sum_range_succ, Finset.sum_range_zero, zero_add]
  have h00 := h 0 0 (by omega) (by omega)
  have h11 := h 1 1 (by omega) (by omega)
  have h22 := h 2 2 (by omega) (by omega)
  have h01 := h 0 1 (by omega) (by omega)
  have h02 := h 0 2 (by omega) (by omega)
  have h12 := h 1 2 (by omega) (by omega)
  norm_num at h00 h11 h22 h01 h02 h12
  simp only [rotate, Finset.sum_range_succ, Finset.sum_range_zero, zero_add]
  linear_combination X e 0 ^ 2 * h00 + X e 1 ^ 2 * h11 + X e 2 ^ 2 * h22 + 2 * X e 0 * X e 1 * h01
    + 2 * X e 0 * X e 2 * h02 + 2 * X e 1 * X e 2 * h12

theorem rotate_add (V : ℕ → ℕ → ℝ) (τ : ℝ) :
    (fun e a => rotate Q X e a + τ * rotate Q V e a) = rotate Q (fun e a => X e a + τ * V e a) := by
  funext e a
  simp only [rotate, Finset.mul_sum, ← Finset.sum_add_distrib]
  refine Finset.sum_congr rfl (fun b _ => ?_)
  ring

variable {f : File} {sph : ℝ → ℝ → ℝ → ℕ → ℝ} {T : Sys} {D : ℕ → ℕ → ℝ}

theorem inside_rotate (hQ : Orthonormal3 Q) (hX : Inside f T X) : Inside f T (rotate Q X) := by
  intro e he
  rw [len_rotate hQ]
  exact hX e he

theorem conf_rotate (hQ : Orthonormal3 Q) :
    confOf f sph T (rotate Q X) = withY (confOf f sph T X) (confOf f sph T (rotate Q X)).Y := by
  unfold withY confOf zblEdge
  simp only [len_rotate hQ]

end rotate

end Verif.MACE
