import Verif.Lemmas.IntIndex.Fits

/-! The loops over paths and Clebsch-Gordan coefficients, and the whole computation. -/

namespace Verif.IntIndex
open Verif.MACE Verif.Spec

variable {f : File} {T : Sys}

/-- Couplings of the paths before `le`. -/
def before (f : File) (le : ℕ) : ℕ :=
  ((List.range le).map (fun p => (2 * nthN f.phil1 p + 1) * (2 * nthN f.phil2 p + 1))).sum

theorem before_succ (f : File) (le : ℕ) :
    before f (le + 1) = before f le + (2 * nthN f.phil1 le + 1) * (2 * nthN f.phil2 le + 1) := by
  simp [before, List.range_succ]

theorem before_mono (f : File) {a b : ℕ} (h : a ≤ b) : before f a ≤ before f b := by
  induction h with
  | refl => exact le_rfl
  | step _ ih => rw [before_succ]; omega

theorem before_length (f : File) : before f f.phil.length = numLelm f := by
  simp [before, numLelm, File.couplings, List.length_flatMap, Function.comp_def]

namespace Facts
variable (F : Facts f T)
include F

theorem pathLoops_ok (hf : FileOk f) {e : ℕ} (he : e < T.E) {g : ℕ → ℕ → ℕ → Option Unit}
    (hg : ∀ lm1 < M f, ∀ lm2 < LM f, ∀ q < numLelm f, g lm1 lm2 q = some ()) : pathLoops f g = some () := by
  have hq := cut F.pR F.hC
  have h1' := F.E1
  rw [F.s1] at h1'
  have hout := loop_eq (n := f.phil.length) (body := fun le q => (do
    let l1 : ℕ := nthN f.phil1 le
    let l2 : ℕ := nthN f.phil2 le
    ev ((le : Ex) * (C f : Ex))
    ev ((l1 : Ex) * (l1 : Ex))
    ev ((l1 : Ex) * ((l1 : Ex) + 2))
    loop (2 * l1 + 1) (fun a q => do
      ev ((l2 : Ex) * (l2 : Ex))
      ev ((l2 : Ex) * ((l2 : Ex) + 2))
      loop (2 * l2 + 1) (fun b q => do
        g (l1 * l1 + a) (l2 * l2 + b) q
        ev ((q : Ex) + 1)
        pure (q + 1)) q) q : Option ℕ)) (fun le => before f le) (fun le hle => by
    have hl1 : nthN f.phil1 le < f.lmax + 1 := by
      have h := hf.phil1.1
      have := hf.phil1.2 (f.phil1[le]'(by omega)) (List.getElem_mem _)
      simp only [nthN, List.getElem?_eq_getElem (show le < f.phil1.length by omega), Option.getD_some]
      omega
    have hl2 : nthN f.phil2 le < f.Lmax + 1 := by
      have h := hf.phil2.1
      have := hf.phil2.2 (f.phil2[le]'(by omega)) (List.getElem_mem _)
      simp only [nthN, List.getElem?_eq_getElem (show le < f.phil2.length by omega), Option.getD_some]
      omega
    have hb := before_mono f (show le + 1 ≤ f.phil.length from hle)
    rw [before_length, before_succ] at hb
    rw [before_succ]
    generalize nthN f.phil1 le = l1 at *
    generalize nthN f.phil2 le = l2 at *
    have hs1 := F.sq_two hl1
    have hs2 := F.sq_two' hl2
    have hM := F.Mlt
    have hL := F.LMlt
    have e1 : ev ((le : Ex) * (C f : Ex)) = some () :=
      ev2 (lt_of_le_of_lt (le_trans (Nat.mul_le_mul_right _ hle.le) (Nat.le_mul_of_pos_left _ (by omega))) h1')
    have e2 : ev ((l1 : Ex) * (l1 : Ex)) = some () := ev2 (by omega)
    have e3 : ev ((l1 : Ex) * ((l1 : Ex) + 2)) = some () := by
      have : l1 * (l1 + 2) = l1 * l1 + 2 * l1 := by ring
      have h4 : l1 ≤ 2 * l1 := by omega
      rw [ev_iff]
      simp only [ok_mul, ok_add, ok_n, val_n, val_add, ok_2, val_2, true_and]
      exact ⟨by rcases l1 with _ | l1 <;> simp at * <;> nlinarith, by omega⟩
    have e4 : ev ((l2 : Ex) * (l2 : Ex)) = some () := ev2 (by omega)
    have e5 : ev ((l2 : Ex) * ((l2 : Ex) + 2)) = some () := by
      have : l2 * (l2 + 2) = l2 * l2 + 2 * l2 := by ring
      rw [ev_iff]
      simp only [ok_mul, ok_add, ok_n, val_n, val_add, ok_2, val_2, true_and]
      exact ⟨by rcases l2 with _ | l2 <;> simp at * <;> nlinarith, by omega⟩
    simp only [e1, e2, e3, e4, e5]
    have hin := loop_eq (n := 2 * l1 + 1) (body := fun a q => (loop (2 * l2 + 1) (fun b q => (do
        g (l1 * l1 + a) (l2 * l2 + b) q
        ev ((q : Ex) + 1)
        pure (q + 1) : Option ℕ)) q)) (fun a => before f le + a * (2 * l2 + 1)) (fun a ha => by
      have ha' : (a + 1) * (2 * l2 + 1) ≤ (2 * l1 + 1) * (2 * l2 + 1) := Nat.mul_le_mul_right _ ha
      rw [add_mul, one_mul] at ha' ⊢
      have := loop_eq (n := 2 * l2 + 1) (body := fun b q => (do
        g (l1 * l1 + a) (l2 * l2 + b) q
        ev ((q : Ex) + 1)
        pure (q + 1) : Option ℕ)) (fun b => before f le + a * (2 * l2 + 1) + b) (fun b hb' => by
          have e6 : ev (((before f le + a * (2 * l2 + 1) + b : ℕ) : Ex) + 1) = some () := by
            rw [ev_iff]; simp only [ok_add, ok_n, val_n, ok_1, val_1, true_and]; omega
          simp only [hg (l1 * l1 + a) (by omega) (l2 * l2 + b) (by omega) _ (show before f le + a * (2 * l2 + 1) + b < numLelm f by omega), e6]
          rfl)
      rw [← add_assoc]
      exact this)
    rw [zero_mul, add_zero] at hin
    exact hin)
  unfold pathLoops
  rw [show before f 0 = 0 from rfl] at hout
  rw [hout]
  rfl

theorem cgLoops_ok (hf : FileOk f) : cgLoops f T = some () := by
  refine each_ok fun i hi => seq (ev3 F.hC (mul2 F.NP (Nat.mul_le_mul_right _ hi.le) le_rfl))
    (seq (ev3 F.hC (mul2 F.NR (Nat.mul_le_mul_right _ hi.le) le_rfl)) (seq ((narrow_iff _).2 (by simpa using F.cg)) (each_ok fun p hp => ?_)))
  have h1 : nthN f.philme p < numLme f := by
    have h := hf.philme.1
    simp only [nthN, List.getElem?_eq_getElem (show p < f.philme.length by omega), Option.getD_some]
    exact hf.philme.2 _ (List.getElem_mem _)
  have h2 : nthN f.philelm p < numLelm f := by
    have h := hf.philelm.1
    simp only [nthN, List.getElem?_eq_getElem (show p < f.philelm.length by omega), Option.getD_some]
    exact hf.philelm.2 _ (List.getElem_mem _)
  exact seq (ev2 (mul2 F.pP h1.le le_rfl)) (ev2 (mul2 F.pR h2.le le_rfl))

theorem edgeOff_ok {NH : ℕ} (hT : SysIn f T NH) (hH : NH * LM f * C f < 2147483648) {e : ℕ} (he : e < T.E) :
    ev ((e : Ex) * (spl1 f : Ex)) = some () ∧ ev ((e : Ex) * (M f : Ex)) = some () ∧
    ev ((nthN T.idx e : Ex) * (LM f : Ex) * (C f : Ex)) = some () :=
  ⟨ev2 (mul2 F.E1 he.le le_rfl), ev2 (mul2 F.EM he.le le_rfl),
    ev3 F.hC (mul2 hH (Nat.mul_le_mul_right _ (hT.nbr e he).le) le_rfl)⟩

theorem computePhi1_ok (hf : FileOk f) {NH : ℕ} (hT : SysIn f T NH) (hH : NH * LM f * C f < 2147483648) : computePhi1 f T = some () := by
  have hE := F.hE
  refine seq (ev3 F.hC F.NR) (seq (edges_ok hT.nn (by omega) (fun i hi => ev3 F.hC (mul2 F.NR (Nat.mul_le_mul_right _ hi.le) le_rfl))
    (fun i hi e he => ?_) (fun _ _ => rfl)) (seq (ev3 F.hC F.NP) (F.cgLoops_ok hf)))
  obtain ⟨h1, h2, h3⟩ := F.edgeOff_ok hT hH he
  exact seq h1 (seq h2 (seq h3 (F.pathLoops_ok hf he (fun lm1 _ lm2 hlm2 q hq =>
    seq (ev2 (mul2 F.LMC hlm2.le le_rfl)) (ev2 (mul2 F.pR hq.le le_rfl))))))

theorem reversePhi1_ok (hf : FileOk f) {NH : ℕ} (hT : SysIn f T NH) (hH : NH * LM f * C f < 2147483648) : reversePhi1 f T = some () := by
  have hE := F.hE
  refine seq (F.cgLoops_ok hf) (seq (edges_ok hT.nn (by omega) (fun i hi => ev3 F.hC (mul2 F.NR (Nat.mul_le_mul_right _ hi.le) le_rfl))
    (fun i hi e he => ?_) (fun _ _ => rfl)) (edges_ok hT.nn (by omega) (fun i hi => ev3 F.hC (mul2 F.NR (Nat.mul_le_mul_right _ hi.le) le_rfl))
    (fun i hi e he => ?_) (fun _ _ => rfl)))
  · obtain ⟨h1, h2, h3⟩ := F.edgeOff_ok hT hH he
    have h4 : ev (3 * (e : Ex)) = some () := by rw [ev_iff]; simp; omega
    have h5 := F.M3 he
    refine seq h4 (seq h1 (seq h2 (seq (F.ev3M he) (seq h3 (F.pathLoops_ok hf he (fun lm1 hlm1 lm2 hlm2 q hq =>
      seq ?_ (seq ?_ (seq ?_ (seq (ev2 (mul2 F.LMC hlm2.le le_rfl)) (ev2 (mul2 F.pR hq.le le_rfl)))))))))))
    all_goals
      rw [ev_iff]
      simp only [ok_mul, ok_add, ok_n, val_n, val_mul, ok_0, ok_1, ok_2, val_0, val_1, val_2, true_and, and_true]
      omega
  · obtain ⟨h1, h2, h3⟩ := F.edgeOff_ok hT hH he
    exact seq h1 (seq h2 (seq h3 (F.pathLoops_ok hf he (fun lm1 _ lm2 hlm2 q hq =>
      seq (ev2 (mul2 F.LMC hlm2.le le_rfl)) (ev2 (mul2 F.pR hq.le le_rfl))))))

theorem countE_ok : countE f = some () := by
  have hP := cut F.pP F.hC
  have hlen : ∀ l : List ℕ, l.length ≤ (l.map (fun l => 2 * l + 1)).sum := by
    intro l
    induction l with
    | nil => simp
    | cons a l ih => simp only [List.length_cons, List.map_cons, List.sum_cons]; omega
  have := loop_eq (n := f.phil.length) (body := fun p (n : ℕ) => (do
    let l : ℕ := nthN f.phil p
    ev (2 * (l : Ex) + 1)
    ev ((n : Ex) + (2 * (l : Ex) + 1))
    ev (((f.phil.take p).count l : Ex) + 1)
    pure (n + (2 * l + 1)) : Option ℕ)) (fun p => ((f.phil.take p).map (fun l => 2 * l + 1)).sum) (fun p hp => by
    have hs : ((f.phil.take (p + 1)).map (fun l => 2 * l + 1)).sum =
        ((f.phil.take p).map (fun l => 2 * l + 1)).sum + (2 * nthN f.phil p + 1) := by
      rw [List.take_add_one, List.map_append, List.sum_append]
      simp [nthN, List.getElem?_eq_getElem hp]
    have hle : ((f.phil.take (p + 1)).map (fun l => 2 * l + 1)).sum ≤ numLme f := by
      conv_rhs => rw [numLme, ← List.take_append_drop (p + 1) f.phil, List.map_append, List.sum_append]
      omega
    have hc : (f.phil.take p).count (nthN f.phil p) ≤ p := le_trans List.count_le_length (by simp)
    have hl : f.phil.length ≤ numLme f := hlen f.phil
    have e1 : ev (2 * ((nthN f.phil p : ℕ) : Ex) + 1) = some () := by
      rw [ev_iff]; simp only [ok_mul, ok_add, ok_n, val_n, val_mul, ok_1, ok_2, val_1, val_2, true_and, and_true]; omega
    have e2 : ev (((((f.phil.take p).map (fun l => 2 * l + 1)).sum : ℕ) : Ex) + (2 * ((nthN f.phil p : ℕ) : Ex) + 1)) = some () := by
      rw [ev_iff]; simp only [ok_mul, ok_add, ok_n, val_n, val_add, val_mul, ok_1, ok_2, val_1, val_2, true_and, and_true]; omega
    have e3 : ev ((((f.phil.take p).count (nthN f.phil p) : ℕ) : Ex) + 1) = some () := by
      rw [ev_iff]; simp only [ok_add, ok_n, val_n, ok_1, val_1, true_and]; omega
    rw [hs]
    simp only [e1, e2, e3]
    rfl)
  unfold countE
  rw [show ((f.phil.take 0).map (fun l => 2 * l + 1)).sum = 0 by simp] at this
  rw [this]
  rfl

theorem A1ints_ok : A1ints f T = some () := by
  have hM := F.Mlt
  have h1 : f.lmax + 1 ≤ M f := Nat.le_mul_of_pos_right _ (by omega)
  refine seq ?_ (seq F.countE_ok (each_ok fun i hi => ?_))
  · rw [ev_iff]; simp only [ok_add, ok_n, val_n, ok_1, val_1, true_and]; omega
  refine seq (ev3 F.hC (mul2 F.NP (Nat.mul_le_mul_right _ hi.le) le_rfl)) (seq (ev3 F.hC (mul2 F.NMC (Nat.mul_le_mul_right _ hi.le) le_rfl))
    (each_ok fun l hl => ?_))
  have h2 := F.sq_two hl
  have h3 : (2 * l + 1) * f.phil.count l ≤ numLme f := by
    have : ∀ p : List ℕ, (2 * l + 1) * p.count l ≤ (p.map (fun l => 2 * l + 1)).sum := by
      intro p
      induction p with
      | nil => simp
      | cons a p ih =>
        rw [List.count_cons, List.map_cons, List.sum_cons, mul_add]
        by_cases h : a = l
        · subst h; simp only [BEq.rfl, if_true]; omega
        · rw [if_neg (by simpa using h)]; omega
    exact this f.phil
  have h4 : f.phil.count l ≤ numLme f := le_trans (Nat.le_mul_of_pos_left _ (by omega)) h3
  have e1 : (2 * (l : Ex) + 1 : Ex).ok = true := by
    simp only [ok_mul, ok_add, ok_n, val_n, val_mul, ok_1, ok_2, val_1, val_2, true_and, and_true]; omega
  have hP := cut F.pP F.hC
  refine seq ((ev_iff _).2 e1) (seq (ev2 (mul2 F.pP h4 le_rfl)) (seq ?_ ?_)) <;> rw [ev_iff, ok_mul]
  · rw [ok_mul]
    simp only [e1, ok_n, val_n, val_mul, val_add, val_1, val_2, true_and]
    exact ⟨by omega, mul2 F.pP h3 le_rfl⟩
  · simp only [e1, ok_n, val_n, val_mul, val_add, val_1, val_2, true_and]
    exact mul2 F.MC (by omega) le_rfl

end Facts

/-- No overflow. -/
theorem computeInts_ok (hf : FileOk f) (hT : SysOk f T) (h : FileFits f) (h' : SysFits f T.N T.E) {cell : ℕ → ℕ}
    (hc : ∀ e < T.E, cell e + 1 < f.nodes0 ∧ cell e + 1 < f.nodes1) : computeInts f T cell = some () := by
  have F := facts hf h h'
  have hE := F.hE
  have hz : (if f.zbl.isSome then zbl T else some ()) = some () := by
    split
    · exact F.zbl_ok hT.nn
    · rfl
  have hR0 : computeR (spl0 f) cell T = some () := computeR_ok hT.nn (by omega) F.E0 F.t0
    (by rw [F.s0]; exact Nat.mul_pos (by omega) F.hC) (fun e he => (hc e he).1)
  have hR1 : computeR (spl1 f) cell T = some () := computeR_ok hT.nn (by omega) F.E1 F.t1
    (by rw [F.s1]; exact Nat.mul_pos hf.nP F.hC) (fun e he => (hc e he).2)
  unfold computeInts
  refine seq hz (seq F.computeY_ok (seq hR0 (seq (F.computeA0_ok hT) (seq (F.computeScaled_ok _ hT.nn) (seq (F.computeM0_ok hT)
    (seq F.H1ints_ok (seq hR1 (seq (F.computePhi1_ok hf hT F.NLMC) (seq (seq (ev3 F.hC F.NMC) F.A1ints_ok) (seq (F.computeScaled_ok _ hT.nn)
    (seq (F.computeM1_ok hT) (seq F.computeH2_ok (seq F.computeReadouts_ok (seq F.reverseH2_ok (seq F.reverseM1_ok
    (seq (F.reverseScaled_ok _ hT.nn) (seq F.A1ints_ok (seq (F.reversePhi1_ok hf hT F.NLMC) (seq F.H1ints_ok (seq F.reverseM0_ok
    (seq (F.reverseScaled_ok _ hT.nn) (F.reverseA0_ok hT))))))))))))))))))))))

/-- The size of `M1_grad` does not fit. -/
theorem computeM1_none (h : 2 ^ 31 ≤ T.N * C f * M f * C f) : computeM1 f T = none := by
  have h1 : ev ((T.N : Ex) * (C f : Ex) * (M f : Ex) * (C f : Ex)) = none := by
    unfold ev
    rw [if_neg]
    simp only [ok_mul, ok_n, val_n, val_mul, true_and, not_and, not_lt]
    intro _
    simpa using h
  unfold computeM1
  refine seq_none ?_
  simp only [h1]
  rfl

theorem computeInts_none (cell : ℕ → ℕ) (h : computeM1 f T = none) : computeInts f T cell = none := by
  unfold computeInts
  refine seq_none (seq_none (seq_none (seq_none (seq_none (seq_none (seq_none (seq_none (seq_none (seq_none (seq_none ?_))))))))))
  simp only [h]
  rfl

end Verif.IntIndex
