import Verif.Lemmas.Kokkos.Layers
import Verif.Lemmas.Kokkos.Compute
import Verif.Lemmas.MACE.Part

/-! # The Kokkos evaluator on graphs in which only the first nodes have energies -/

namespace Verif.Kokkos
open Verif.Par Verif.Par.Prog Verif.MACE Verif.Spec Verif.Spline

section restrict
variable {K : Type} [Field K] [LinearOrder K] [FloorRing K] {g : Graph K} {c : Conf K} {R : ℕ → K} {N : ℕ} {l : List ℕ}

theorem RadOkK.restrict {h : K} {co : View K} {S : ℕ} {pair : ℕ → ℕ → ℕ} {φ φ' : ℕ → ℕ → K} (hr : RadOkK h co S pair g c R φ φ') (hN : N ≤ g.N) :
    RadOkK h co S pair { g with N := N, idx := l } c R φ φ' := fun i hi => hr i (lt_of_lt_of_le hi hN)

theorem ScK.restrict {spl : Option (RadialSet K)} {sc dv : ℕ → K} (hs : ScK spl g c R sc dv) (hN : N ≤ g.N) :
    ScK spl { g with N := N, idx := l } c R sc dv := by
  cases spl with
  | none => exact ⟨fun i hi => hs.1 i (lt_of_lt_of_le hi hN), hs.2⟩
  | some s =>
    obtain ⟨h1, v, h2, h3⟩ := hs
    exact ⟨h1, v, h2.restrict hN, fun i hi => h3 i (lt_of_lt_of_le hi hN)⟩

end restrict

variable {f : File} {T : Sys} {NH nl : ℕ} {X : ℕ → ℕ → ℝ} {sph : ℝ → ℝ → ℝ → ℕ → ℝ} {dsph : ℝ → ℝ → ℝ → ℕ → ℕ → ℝ} {P : Params ℝ}

/-- Edges beyond those of the nodes lie inside the table too. -/
theorem radX_set (hT : SysIn f T NH) {h : ℝ} {n S : ℕ} {s : RadialSet ℝ} {v d : ℕ → ℕ → ℕ → ℝ} (hh : 0 < h)
    (hin : ∀ e < T.E, 0 < len (X e) ∧ len (X e) < h * (n - 1 : ℕ)) (h1 : s.h = h) (h2 : s.numTypes = (pairList f.nT).length)
    (h3 : CoefOk s.c (pairList f.nT).length (n - 1) S (fun a i s j => cub h (v a j i) (d a j i) (v a j (i + 1)) (d a j (i + 1)) s)) {l : List ℕ} :
    RadX s.h s.c S (pairIndex (uniqueTypes s.numTypes)) { gx T T.E X with N := nl, idx := l } := by
  rw [h1, h2, uniqueTypes_pairs]
  intro e _ he
  replace he : e < T.E := by
    have : (gx T T.E X).Ex = T.E := gx_Ex
    rw [← this]; exact he
  have hN : 0 < T.N := lt_of_le_of_lt (Nat.zero_le _) (owner_spec he).1
  obtain ⟨h5, h6⟩ := hin e he
  obtain ⟨j, hj, b1, b2⟩ := exists_interval hh h5.le h6
  have ht : truncInt (len (X e) / h) = (j : ℤ) := truncInt_div hh j b1 b2
  refine ⟨nthN T.types 0, nthN T.ntypes e, len (X e), some_nthN (lt_of_lt_of_le hN hT.types), some_nthN (lt_of_lt_of_le he hT.ntypes), ?_, ?_, ?_⟩
  · exact getElem?_tab_lt he
  · rw [ht]; omega
  · intro k hk
    rw [ht]
    exact ⟨_, coeffs_of (fun s hs => h3 _ (pairIndex_lt (hT.typ 0 hN) (hT.nty e he)) j hj s hs k hk)⟩

theorem scX_of (hT : SysIn f T NH) {b : Bool} {h : ℝ} {vals ders : List (List ℝ)} {spl : Option (RadialSet ℝ)}
    (hh : b = true → 0 < h) (h0 : b = true → 0 < vals.length)
    (hspl : (b = false → spl = none) ∧ (b = true → ∃ s, spl = some s ∧ SetOk s h (pairList f.nT).length
      (row vals 0).length 1 (fun a _ i => nth (row vals a) i) (fun a _ i => nth (row ders a) i)))
    (hin : ∀ e < T.E, 0 < len (X e) ∧ (b = true → ∀ w ∈ vals, len (X e) < h * (w.length - 1 : ℕ))) {l : List ℕ} :
    ScX spl { gx T T.E X with N := nl, idx := l } := by
  intro s hs
  cases b with
  | false => rw [hspl.1 rfl] at hs; cases hs
  | true =>
    obtain ⟨s', e, k1, k2, k3, k4⟩ := hspl.2 rfl
    obtain rfl : s' = s := Option.some.inj (e.symm.trans hs)
    exact radX_set hT (hh rfl) (fun e he => ⟨(hin e he).1, (hin e he).2 rfl _ (row_mem (h0 rfl))⟩) k1 k2 k4

/-- Clearing of the outputs and pair repulsion of the first `nl` nodes. -/
theorem startPair_spec (V : Env ℝ) (hf : FileOk f) (hT : SysIn f T NH) (hP : LoadedK f sph dsph P) (hl : nl ≤ T.N) {s : State ℝ} (hs : StOkK f P s)
    (l : List ℕ) :
    ∃ s', startPair V f.zbl P { gx T T.E X with N := nl, idx := l } s = some s' ∧ KSt P (netOf f) f.phil.length 2 s' ∧
      All s'.energies nl (fun i => if i < nl then (confOf f sph T X).pairE i else 0) ∧
      Fc s'.forces T.E (fun e a => if e < off T.nn nl then zblForce f T X e a else 0) := by
  obtain ⟨hs1, hs2, hs3⟩ := hs
  obtain ⟨z1, z2⟩ := start_spec (N := nl) (E3 := 3 * T.E) hs2 hs3
  obtain ⟨o, o1, o2, o3⟩ := zbl_spec V hf (cut_in hT hl) hP (X := X) (cut_E_le hl) z1 z2
  have hx3 : (gx T T.E X).xyz.length = 3 * T.E := by simp [gx, mul_comm]
  refine ⟨{ s with energies := o.1, forces := o.2 }, ?_, ⟨hs1.1, hs1.2, hs1.3, hs1.4, hs1.5, hs1.6, hs1.7, hs1.8, hs1.9, hs1.10, hs1.11, hs1.12, hs1.13, hs1.14,
    hs1.15, hs1.16, hs1.17, hs1.18, hs1.19, hs1.20, hs1.21, hs1.22, hs1.23, hs1.24, hs1.25, hs1.26, hs1.27, hs1.28, hs1.29⟩, ?_, ?_⟩
  · unfold startPair
    dsimp only
    rw [hx3]
    exact (bind_of_some o1 _).trans rfl
  · refine o2.congr (fun i => ?_)
    by_cases hi : i < nl
    · rw [if_pos hi, if_pos (show i < (cut T nl).N from hi), pairE_cut hl hi]
    · rw [if_neg hi, if_neg (show ¬ i < (cut T nl).N from hi)]
  · refine All.congr o3 (fun p => ?_)
    dsimp only
    by_cases he : p / 3 < (cut T nl).E
    · rw [if_pos he, zblForce_cut hl he, if_pos (show p / 3 < off T.nn nl from he)]
    · rw [if_neg he, if_neg (show ¬ p / 3 < off T.nn nl from he)]

/-- The evaluation: first layer on all nodes of `T`, the rest on the first `nl`. `l` contains the numbers of the neighbours of those, `l0` is
not used. -/
theorem partEval (V : Env ℝ) (hf : FileOk f) (hT : SysOk f T) (hP : LoadedK f sph dsph P) (hX : Inside f T X) (hl : nl ≤ T.N) {s : State ℝ}
    (hs : StOkK f P s) (l0 : List ℕ) {l : List ℕ} (hi : ∀ e < off T.nn nl, l[e]? = some (nthN T.idx e)) :
    ∃ s0 s1 s2 s3, startPair V f.zbl P { gx T T.E X with N := nl, idx := l } s = some s0 ∧
      firstLayer V P { gx T T.E X with idx := l0 } s0 = some s1 ∧
      secondLayer V P { gx T T.E X with N := nl, idx := l } s1 = some s2 ∧
      firstLayerBack V P { gx T T.E X with idx := l0 } s2 = some s3 ∧ StOkK f P s3 ∧
      All s3.energies nl (fun i => if i < nl then energy (netOf f) (confOf f sph T X) i else 0) ∧
      Fc s3.forces T.E (fun e a => if e < T.E then forcePart f sph dsph T X nl (h1 (netOf f) (confOf f sph T X))
        (H1adj (netOf f) (confOf f sph T X) nl (h1 (netOf f) (confOf f sph T X)) (roGrad f)) e a else 0) := by
  have hp := pairs_pos hf
  have hEx : (gx T T.E X).Ex = T.E := gx_Ex
  have hg : GOk (gx T T.E X) f.nT T.N (confOf f sph T X) (nthN T.nn) (dconfOf f dsph T X).X (dconfOf f dsph T X).R := graph_ok hT le_rfl
  have hg' : GOk { gx T T.E X with N := nl, idx := l } f.nT T.N (confOf f sph T X) (nthN T.nn) (dconfOf f dsph T X).X (dconfOf f dsph T X).R := by
    have := hg.restrict hl (fun e he => hg.nbr_lt e (lt_of_lt_of_le he (off_mono _ hl)))
    exact { this with idx := hi }
  have hk := kfeat hf hT hP hX
  obtain ⟨s0, e0, k0, en0, fo0⟩ := startPair_spec (X := X) V hf hT hP hl hs l
  obtain ⟨s1, e1, k1, en1, fo1, fd1, hr1, hh1⟩ := firstLayer_spec V hP.wok hg hEx hk k0
  obtain ⟨a1, a2, a3, a4⟩ := hP.R1
  have hE : off T.nn nl ≤ T.E := cut_E_le hl
  obtain ⟨s2, e2, k2, en2, fo2, hr2, ha2, c1, c2, c3, c4, c5, c6, c7, c8, c9, c10⟩ := secondLayer_spec V hP.wok hg' hl
    (radX_set hT hf.h (fun e he => ⟨(hX e he).1, (hX e he).2.2.1⟩) a1 a2 a4)
    (scX_of hT (fun h => (hf.A1s h).1) (fun h => by rw [(hf.A1s h).2.1]; exact hp) hP.A1 (fun e he => ⟨(hX e he).1, (hX e he).2.2.2.2⟩))
    hk.n1 (hk.r1.restrict hl) (hk.s1.restrict hl) k1 (fun e he => fd1.Y e (lt_of_lt_of_le he hE)) (fun e he => fd1.Yg e (lt_of_lt_of_le he hE))
    hr1 hh1 (e := fun i => if i < nl then (confOf f sph T X).pairE i else 0)
    (F := fun e a => if e < off T.nn nl then zblForce f T X e a else 0) (by rw [en1]; exact en0)
    (by rw [fo1]; change Fc _ (gx T T.E X).Ex _; rw [hEx]; exact fo0)
  obtain ⟨s3, e3, k3, en3, fo3, -, -⟩ := firstLayerBack_spec V hP.wok hg k2 (fd1.carry c2 c3 c4 c5 c6 c7 c8 c9 c10) ha2 fo2
  replace fo3 : Fc s3.forces (gx T T.E X).Ex _ := fo3
  rw [hEx] at fo3
  refine ⟨s0, s1, s2, s3, e0, e1, e2, e3, ⟨k3, by rw [en3]; exact en2.vec, All.vec fo3⟩, ?_, ?_⟩
  · rw [en3]
    refine All.congr en2 (fun i => ?_)
    by_cases h : i < nl
    · rw [if_pos h, if_pos h, if_pos h]
      unfold energy nodeE
      ring
    · rw [if_neg h, if_neg h, if_neg h, add_zero]
  · refine All.congr fo3 (fun p => ?_)
    dsimp only
    by_cases he : p / 3 < T.E
    · rw [if_pos he]
      have := congrArg (fun l : List ℝ => l[p / 3 * 3 + p % 3]?) (part_forces (f := f) (sph := sph) (dsph := dsph) (X := X) hl
        (H := h1 (netOf f) (confOf f sph T X)) (Ha := H1adj (netOf f) (confOf f sph T X) nl (h1 (netOf f) (confOf f sph T X)) (roGrad f)))
      rw [getElem?_tab2 he (by omega), getElem?_tab2 he (by omega)] at this
      exact (Option.some.inj this).symm
    · rw [if_neg he]
      have h2 : ¬ p / 3 < off T.nn nl := by omega
      unfold onE
      rw [if_neg h2, if_neg (show ¬ p / 3 < off (gx T T.E X).nn nl from h2), if_neg (show ¬ p / 3 < off (gx T T.E X).nn (gx T T.E X).N from he)]
      ring

end Verif.Kokkos
