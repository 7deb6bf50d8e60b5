import Verif.Model.Kokkos.ASE
import Verif.Lemmas.Kokkos.Sizes
import Verif.Props.ASE
import Verif.Props.Kokkos

/-! # Property theorems: the ASE calculator with the Kokkos evaluator (C76, C77) -/

namespace Verif.Props
open Verif.ASE Verif.MACE Verif.Spec

/-! ## Lemmas -/

/-- The forces always have three components per edge. -/
theorem HistK.forces_size {f : File} {P : Kokkos.Params ℝ} {t : Kokkos.State ℝ} (h : HistK f P t) : ∃ n, t.forces.ext = [3 * n] := by
  induction h with
  | init => exact ⟨0, rfl⟩
  | @call V s s' T X _ _ _ e ih =>
    have := (Kokkos.compute_ext e).2
    have hx : (T.graph X).xyz.length = 3 * T.E := by simp [Sys.graph, mul_comm]
    rw [hx] at this
    split_ifs at this
    · exact ⟨_, this⟩
    · obtain ⟨n, hn⟩ := ih
      exact ⟨n, this.trans hn⟩

/-- Zeros behind the forces do not change the columns. -/
theorem column_padded {v : View ℝ} {F : List ℝ} {n c k : ℕ} (hc : c < 3) (hF : F.length = 3 * n) (hv : ZeroPadded v F)
    (hk : v.ext = [3 * k]) : column v.data n c = column F n c := by
  obtain ⟨h1, h2, h3⟩ := hv
  rw [hk] at h1
  have hl : v.data.length = 3 * k := by simpa using h1.symm
  unfold column
  rw [if_pos (by omega), if_pos (by omega)]
  have a1 : min n (v.data.length / 3) = n := by omega
  have a2 : min n (F.length / 3) = n := by omega
  rw [a1, a2]
  congr 1
  refine List.map_congr_left (fun e he => ?_)
  have he' := List.mem_range.mp he
  rw [List.getD_eq_getElem?_getD, List.getD_eq_getElem?_getD, h3 _ (by omega), if_pos (by omega)]

section
variable {f : File} {ne : ℕ} {sph : ℝ → ℝ → ℝ → ℕ → ℝ} {dsph : ℝ → ℝ → ℝ → ℕ → ℕ → ℝ}
  {srt : List (List (List ℕ)) → List (List (List ℕ))} {junk : ℕ → ℕ → ℝ}

/-- Both calculators on the same structure. -/
theorem calculateK_spec (hf : FileOk f) (hk : FileOkK f ne) (hs : Poly.SortFn srt) :
    ∃ P s0 Q, MACE.load srt sph dsph f = some (P, s0) ∧ Kokkos.load srt sph dsph junk ne f = some (Q, Kokkos.State.init ℝ) ∧
      ∀ Z i j V X, i ≠ [] → CalcOk f Z i j X → ∀ s, Hist f P s0 s → ∀ t, HistK f Q t → ∀ E : Kokkos.Env ℝ,
        ∃ r rk, calculate f.zbl P Z V (pairsOf i j X) s = some r ∧ calculateK E f.zbl Q Z V (pairsOf i j X) t = some rk ∧
          HistK f Q rk.1 ∧ rk.2.energy = r.2.energy ∧ rk.2.forces = r.2.forces ∧ rk.2.stress = r.2.stress ∧
          rk.2.energies = rk.1.energies.data ∧ ZeroPadded rk.1.energies r.2.energies ∧ r.2.energies.length = covered i ∧
          rk.1.energies.data.length = max t.energies.data.length (covered i) := by
  obtain ⟨P, s0, h1, h2, h3⟩ := MACE.load_spec hf hs sph dsph
  obtain ⟨Q, k1, k2⟩ := Kokkos.load_spec hf hk hs sph dsph junk
  obtain ⟨P', s0', Q', a1, a2, a3⟩ := C62_kokkos_equals_cpu (sph := sph) (dsph := dsph) (junk := junk) hf hk hs
  rw [h1] at a1
  rw [k1] at a2
  cases a1
  cases a2
  refine ⟨P, s0, Q, h1, k1, fun Z i j V X hne hc s hh t ht E => ?_⟩
  obtain ⟨m, hm, hcov⟩ := covered_eq hne
  have hi := max?_le hm
  have hlt : ∀ a ∈ i, a < m + 1 := fun a ha => Nat.lt_succ_of_le (hi.2 a ha)
  have hT := sysOf_ok hc.pairs hc.known hlt (hc.pairs.lt m hi.1)
  have hX := inside_calc hc hlt
  obtain ⟨s', t', e1, e2, l1, l2, z1, z2⟩ := a3 _ X hT hX s hh t ht E
  rw [sysOf_E hlt] at l2
  obtain ⟨s'', b1, -⟩ := calculate_spec hf h2 hc.pairs hc.known hm hX (hh.ok hf h2 h3) V
  have ht' : HistK f Q t' := .call ht hT hX e2
  obtain ⟨k, hk3⟩ := ht'.forces_size
  have hcol : ∀ c < 3, column t'.forces.data i.length c = column s'.nodeForces i.length c :=
    fun c hc3 => column_padded hc3 l2 z2 hk3
  have hsize : t'.energies.data.length = max t.energies.data.length (m + 1) := by
    obtain ⟨-, ⟨v1, x, v2⟩, -⟩ := ht.ok hf k2
    have hx : t.energies.data.length = x := by
      have : t.energies.data.length = t.energies.ext.prod := v1
      rw [this, v2]
      simp
    have hz := z1.1
    have hext := (Kokkos.compute_ext e2).1
    rw [hz, v2] at hext
    have hN : ((sysOf f.atomicNumbers Z i j (m + 1)).graph X).N = m + 1 := rfl
    rw [hN] at hext
    simp only [List.prod_cons, List.prod_nil, mul_one] at hext
    split_ifs at hext with hlt'
    · have := List.cons.inj hext
      omega
    · have := List.cons.inj hext
      omega
  unfold calculate at b1
  rw [h2.an, arguments_eq hc.pairs hc.known hm X] at b1
  simp only [Option.bind_eq_bind, Option.bind_some] at b1
  rw [e1] at b1
  simp only [Option.bind_some, Option.bind_eq_some_iff] at b1
  obtain ⟨p0, c0, p1, c1, p2, c2, f0, d0, f1, d1, f2, d2, b⟩ := b1
  have hcpu : calculate f.zbl P Z V (pairsOf i j X) s = some (s', ⟨s'.nodeEnergies.sum, s'.nodeEnergies, [f0, f1, f2],
      toVoigt (fun a b => stressEntry (if a = 0 then p0 else if a = 1 then p1 else p2) (pairsOf i j X).D V b)⟩) := by
    unfold calculate
    rw [h2.an, arguments_eq hc.pairs hc.known hm X]
    simp only [Option.bind_eq_bind, Option.bind_some]
    rw [e1]
    simp only [Option.bind_some]
    rw [c0, c1, c2]
    simp only [Option.bind_some]
    rw [d0, d1, d2]
    rfl
  have hkok : calculateK E f.zbl Q Z V (pairsOf i j X) t = some (t', ⟨t'.energies.data.sum, t'.energies.data, [f0, f1, f2],
      toVoigt (fun a b => stressEntry (if a = 0 then p0 else if a = 1 then p1 else p2) (pairsOf i j X).D V b)⟩) := by
    have q : ∀ c < 3, column t'.forces.data (pairsOf i j X).i.length c = column s'.nodeForces (pairsOf i j X).i.length c := hcol
    unfold calculateK
    rw [k2.an, arguments_eq hc.pairs hc.known hm X]
    simp only [Option.bind_eq_bind, Option.bind_some]
    rw [e2]
    simp only [Option.bind_some]
    rw [q 0 (by norm_num), q 1 (by norm_num), q 2 (by norm_num), c0, c1, c2]
    simp only [Option.bind_some]
    rw [d0, d1, d2]
    rfl
  exact ⟨_, _, hcpu, hkok, ht', z1.sum, rfl, rfl, rfl, z1, l1.trans hcov.symm, by rw [hcov]; exact hsize⟩

/-! ## C76 -/

/-- C76: with the Kokkos evaluator (the default) the calculator returns the energy, forces and stress of the calculator with the
class `MACE`, whatever was calculated before with either of them and for every interleaving of the threads. -/
theorem C76_kokkos_calculator (hf : FileOk f) (hk : FileOkK f ne) (hs : Poly.SortFn srt) :
    ∃ P s0 Q, MACE.load srt sph dsph f = some (P, s0) ∧ Kokkos.load srt sph dsph junk ne f = some (Q, Kokkos.State.init ℝ) ∧
      ∀ Z i j V X, i ≠ [] → CalcOk f Z i j X → ∀ s, Hist f P s0 s → ∀ t, HistK f Q t → ∀ E : Kokkos.Env ℝ,
        ∃ r rk, calculate f.zbl P Z V (pairsOf i j X) s = some r ∧ calculateK E f.zbl Q Z V (pairsOf i j X) t = some rk ∧
          HistK f Q rk.1 ∧ rk.2.energy = r.2.energy ∧ rk.2.forces = r.2.forces ∧ rk.2.stress = r.2.stress := by
  obtain ⟨P, s0, Q, h1, h2, h3⟩ := calculateK_spec (sph := sph) (dsph := dsph) (junk := junk) hf hk hs
  refine ⟨P, s0, Q, h1, h2, fun Z i j V X hne hc s hh t ht E => ?_⟩
  obtain ⟨r, rk, a1, a2, a3, a4, a5, a6, -⟩ := h3 Z i j V X hne hc s hh t ht E
  exact ⟨r, rk, a1, a2, a3, a4, a5, a6⟩

/-- C76, the derivative: the force the Kokkos calculator returns for atom `b` is minus the derivative, in the position of `b`, of the
energy it returns. -/
theorem C76_forces (hf : FileOk f) (hk : FileOkK f ne) (hs : Poly.SortFn srt)
    (hsph : IsSphGrad sph dsph ((f.lmax + 1) * (f.lmax + 1))) :
    ∃ Q, Kokkos.load srt sph dsph junk ne f = some (Q, Kokkos.State.init ℝ) ∧
      ∀ Z i j V, i ≠ [] → ∃ W : (ℕ → ℕ → ℝ) → (ℕ → ℕ → ℝ) → ℝ,
      (∀ S x, CalcOk f Z i j (vecs i j S x) → ∀ t, HistK f Q t → ∀ E : Kokkos.Env ℝ,
        ∃ r, calculateK E f.zbl Q Z V (pairsOf i j (vecs i j S x)) t = some r ∧ r.2.energy = W S x) ∧
      ∀ S x, CalcOk f Z i j (vecs i j S x) →
        ScalesNonzero f sph (sysOf f.atomicNumbers Z i j (covered i)) (vecs i j S x) → ∀ t, HistK f Q t → ∀ E : Kokkos.Env ℝ,
        ∃ r, calculateK E f.zbl Q Z V (pairsOf i j (vecs i j S x)) t = some r ∧ ∀ b < Z.length, ∀ c < 3,
          (∀ᶠ τ in nhds 0, CalcOk f Z i j (vecs i j S (shifted x b c τ))) ∧
          HasDerivAt (fun τ => W S (shifted x b c τ)) (-(nth (row r.2.forces c) b)) 0 := by
  obtain ⟨P, s0, Q, h1, h2, h3⟩ := C76_kokkos_calculator (sph := sph) (dsph := dsph) (junk := junk) hf hk hs
  obtain ⟨P', s0', a1, a2⟩ := C39_ase f sph dsph hf hs hsph
  rw [h1] at a1
  cases a1
  refine ⟨Q, h2, fun Z i j V hne => ?_⟩
  obtain ⟨W, w1, w2⟩ := a2 Z i j V hne
  refine ⟨W, fun S x hc t ht E => ?_, fun S x hc hsc t ht E => ?_⟩
  · obtain ⟨r, rk, b1, b2, -, b3, -⟩ := h3 Z i j V _ hne hc s0 .init t ht E
    obtain ⟨r', c1, c2⟩ := w1 S x hc s0 .init
    rw [b1] at c1
    cases c1
    exact ⟨rk, b2, b3.trans c2⟩
  · obtain ⟨r, rk, b1, b2, -, -, b3, -⟩ := h3 Z i j V _ hne hc s0 .init t ht E
    obtain ⟨r', c1, c2⟩ := w2 S x hc hsc s0 .init
    rw [b1] at c1
    cases c1
    exact ⟨rk, b2, by rw [b3]; exact c2⟩

/-! ## C77 -/

/-- C77, what the code does: the array `energies` holds the energies the calculator with the class `MACE` returns, followed by zeros
up to the largest number of nodes of any earlier call.  Missing: without a condition on earlier calls the array is too long, see
`C77_violated`. -/
theorem C77_energies_partial (hf : FileOk f) (hk : FileOkK f ne) (hs : Poly.SortFn srt) :
    ∃ P s0 Q, MACE.load srt sph dsph f = some (P, s0) ∧ Kokkos.load srt sph dsph junk ne f = some (Q, Kokkos.State.init ℝ) ∧
      ∀ Z i j V X, i ≠ [] → CalcOk f Z i j X → ∀ s, Hist f P s0 s → ∀ t, HistK f Q t → ∀ E : Kokkos.Env ℝ,
        ∃ r rk, calculate f.zbl P Z V (pairsOf i j X) s = some r ∧ calculateK E f.zbl Q Z V (pairsOf i j X) t = some rk ∧
          rk.1.energies.data.length = rk.2.energies.length ∧
          rk.2.energies.length = max t.energies.data.length r.2.energies.length ∧
          rk.2.energies = r.2.energies ++ List.replicate (t.energies.data.length - r.2.energies.length) 0 ∧
          (t.energies.data.length ≤ r.2.energies.length → rk.2.energies = r.2.energies) := by
  obtain ⟨P, s0, Q, h1, h2, h3⟩ := calculateK_spec (sph := sph) (dsph := dsph) (junk := junk) hf hk hs
  refine ⟨P, s0, Q, h1, h2, fun Z i j V X hne hc s hh t ht E => ?_⟩
  obtain ⟨r, rk, a1, a2, -, -, -, -, a3, ⟨-, a4, a5⟩, a6, a7⟩ := h3 Z i j V X hne hc s hh t ht E
  rw [← a6] at a7
  have key : rk.2.energies = r.2.energies ++ List.replicate (t.energies.data.length - r.2.energies.length) 0 := by
    rw [a3]
    refine List.ext_getElem? (fun p => ?_)
    by_cases hp : p < rk.1.energies.data.length
    · rw [a5 p hp]
      split_ifs with hpx
      · rw [List.getElem?_append_left hpx]
      · rw [List.getElem?_append_right (by omega), List.getElem?_replicate, if_pos (by omega)]
    · rw [List.getElem?_eq_none (by omega), List.getElem?_eq_none (by simp; omega)]
  refine ⟨r, rk, a1, a2, by rw [a3], by rw [a3, a7], key, fun hle => ?_⟩
  rw [key, show t.energies.data.length - r.2.energies.length = 0 by omega]
  simp

end

/-! ## Examples and violation of C77 -/

/-- Four atoms H, C, H, C in two bonded pairs. -/
theorem exCalc4 : CalcOk exFile [1, 6, 1, 6] [0, 1, 2, 3] [1, 0, 3, 2] (fun e => exX (e % 2)) where
  pairs := ⟨rfl, by decide, by decide, by decide⟩
  known := by
    intro z hz
    have : exFile.atomicNumbers = [1, 6] := rfl
    rw [this]
    revert z
    decide
  inside := fun e _ => exInside (e % 2) (Nat.mod_lt _ (by norm_num))

/-- The bonded pair H, C. -/
theorem exCalc2 : CalcOk exFile [1, 6] [0, 1] [1, 0] exX where
  pairs := ⟨rfl, by decide, by decide, by decide⟩
  known := by
    intro z hz
    have : exFile.atomicNumbers = [1, 6] := rfl
    rw [this]
    exact hz
  inside := fun e he => exInside e he

/-- C77 fails: after a structure of four atoms, the array `energies` of a structure of two atoms has four entries; in every
environment. -/
theorem C77_violated : ∃ f ne, FileOk f ∧ FileOkK f ne ∧ ∃ Z i j X Z' i' j' X', CalcOk f Z i j X ∧ CalcOk f Z' i' j' X' ∧
    Z'.length = 2 ∧ Z'.length - 1 ∈ i' ∧ ∀ srt, Poly.SortFn srt → ∀ sph dsph junk, ∃ Q s0,
      Kokkos.load srt sph dsph junk ne f = some (Q, s0) ∧ ∀ (V : ℝ) (E E' : Kokkos.Env ℝ), ∃ r r',
        calculateK E f.zbl Q Z V (pairsOf i j X) s0 = some r ∧ r.2.energies.length = 4 ∧
        calculateK E' f.zbl Q Z' V (pairsOf i' j' X') r.1 = some r' ∧ r'.2.energies.length = 4 := by
  refine ⟨exFile, 2, exFile_ok, exFile_okK, [1, 6, 1, 6], [0, 1, 2, 3], [1, 0, 3, 2], fun e => exX (e % 2), [1, 6], [0, 1], [1, 0], exX,
    exCalc4, exCalc2, rfl, by decide, fun srt hs sph dsph junk => ?_⟩
  obtain ⟨P, s0, Q, h1, h2, h3⟩ := calculateK_spec (sph := sph) (dsph := dsph) (junk := junk) exFile_ok exFile_okK hs
  refine ⟨Q, _, h2, fun V E E' => ?_⟩
  obtain ⟨-, rk, -, a2, a3, -, -, -, a4, -, -, a5⟩ := h3 _ _ _ V _ (by simp) exCalc4 s0 .init _ .init E
  obtain ⟨-, rk', -, b2, -, -, -, -, b4, -, -, b5⟩ := h3 _ _ _ V _ (by simp) exCalc2 s0 .init _ a3 E'
  have c1 : covered [0, 1, 2, 3] = 4 := rfl
  have c2 : covered [0, 1] = 2 := rfl
  have e4 : rk.1.energies.data.length = 4 := by rw [a5, c1]; rfl
  refine ⟨rk, rk', a2, by rw [a4, e4], b2, ?_⟩
  rw [b4, b5, e4, c2]
  rfl

/-- The hypotheses of C76 hold for the bonded pair; those of the derivative as well. -/
example : FileOk exFile ∧ FileOkK exFile 2 ∧ CalcOk exFile [1, 6] [0, 1] [1, 0] exX ∧
    IsSphGrad exSph exDsph ((exFile.lmax + 1) * (exFile.lmax + 1)) ∧
    ScalesNonzero exFile exSph (sysOf exFile.atomicNumbers [1, 6] [0, 1] [1, 0] (covered [0, 1])) exX ∧ ∃ srt, Poly.SortFn srt :=
  ⟨exFile_ok, exFile_okK, exCalc2, exSph_ok, exScales, _, exSort⟩

end Verif.Props
