import Verif.Lemmas.Num.Converge
import Verif.Lemmas.Num.Rounded
import Verif.Lemmas.Rounding.Format
import Verif.Props.MACEExample

/-! # Property theorems: rounding errors of the whole evaluator (C102)

`Model/Num.lean` with an arithmetic on real numbers whose operations are only approximately those of `ℝ`, against `Model/MACE.lean`.
-/

namespace Verif.Props
open Verif.MACE Verif.NumSpec

/-- Energies and forces of a call are within `ε` of those of the exact evaluator, started on the object `s0'`. -/
def ResultNear (f : File) (P' : Params ℝ) (s0' : State ℝ) (ε : ℝ) (out : List ℝ × List ℝ) (q : Sys × (ℕ → ℕ → ℝ)) : Prop :=
  ∃ s', computeNodeEnergiesForces f.zbl P' (q.1.graph q.2) s0' = some s' ∧ BufNear ε out.1 s'.nodeEnergies ∧ BufNear ε out.2 s'.nodeForces

/-- A call whose bond vectors are inside the tables, at which no normalisation vanishes and at which the harmonics are continuous. -/
structure Regular (f : File) (sph : ℝ → ℝ → ℝ → ℕ → ℝ) (dsph : ℝ → ℝ → ℝ → ℕ → ℕ → ℝ) (q : Sys × (ℕ → ℕ → ℝ)) : Prop where
  sys : SysOk f q.1
  inside : Inside f q.1 q.2
  scales : ScalesNonzero f sph q.1 q.2
  cont : SphCont sph dsph f.lmax q

variable {f : File} {sph : ℝ → ℝ → ℝ → ℕ → ℝ} {dsph : ℝ → ℝ → ℝ → ℕ → ℕ → ℝ} {srt : List (List (List ℕ)) → List (List (List ℕ))}

/-- C102: the evaluator is numerically consistent.  For every `ε` there is an accuracy `δ` of the operations, of the conversion of the
numbers in the file, of the harmonics and of the input, from which on the object is constructed, all of the calls succeed one after
the other, and every energy and force is within `ε` of the exact evaluator's. -/
theorem C102_convergence (hf : FileOk f) (hz : ∀ z, f.zbl = some z → ZblOk z f.atomicNumbers) (hsrt : Poly.SortFn srt)
    (calls : List (Sys × (ℕ → ℕ → ℝ))) (hc : ∀ q ∈ calls, Regular f sph dsph q) (c : ℕ → ℝ) {η ε : ℝ} (hη : 0 < η) (hε : 0 < ε) :
    ∃ P' s0', MACE.load srt sph dsph f = some (P', s0') ∧ ∃ δ, 0 < δ ∧ δ ≤ 1 ∧
      ∀ M : Machine, M.AccurateFor c δ η sph dsph f.lmax calls → ∀ is, List.Forall₂ (InputNear δ) is calls →
        ∃ P s0 outs, Num.load (A := M.A) srt M.φ M.sph M.dsph M.nrm f = some (P, s0) ∧
          Num.runAll (A := M.A) (f.zbl.map (Num.loadZbl M.φ)) P is s0 = some outs ∧ List.Forall₂ (ResultNear f P' s0' ε) outs calls := by
  obtain ⟨P', s', h1, h2, h3⟩ := load_spec hf hsrt sph dsph
  obtain ⟨δ, h4, h5, h6⟩ := Num.exists_accuracy hf hz hsrt (fun q hq => ⟨(hc q hq).sys, (hc q hq).inside, (hc q hq).scales⟩)
    (fun q hq => (hc q hq).cont) c hη hε
  refine ⟨P', s', h1, δ, h4, h5, fun M hM is his => ?_⟩
  obtain ⟨P, s0, outs, e1, e2, e3⟩ := h6 M hM is his
  refine ⟨P, s0, outs, e1, e2, ?_⟩
  rw [List.forall₂_map_right_iff] at e3
  clear e2 his hM
  have hc' : ∀ q ∈ calls, SysOk f q.1 ∧ Inside f q.1 q.2 := fun q hq => ⟨(hc q hq).sys, (hc q hq).inside⟩
  clear h6 hc
  induction e3 with
  | nil => exact .nil
  | @cons o q os qs h _ ih =>
    obtain ⟨k1, k2⟩ := hc' q (List.mem_cons_self ..)
    obtain ⟨s2, m1, m2, m3, -⟩ := compute_spec hf k1 h2 k2 h3
    exact .cons ⟨s2, m1, m2 ▸ h.1, m3 ▸ h.2⟩ (ih fun q hq => hc' q (List.mem_cons_of_mem _ hq))

/-- C102: rounding every result, and adding inner products from left to right, is accurate in the sense of `C102_convergence`. -/
theorem C102_rounded {fl : ℝ → ℝ} {δ : ℝ} (h0 : 0 < δ) (h1 : δ ≤ 1) (hfl : ∀ x, Close δ (fl x) x) (η : ℝ) (lmax : ℕ)
    (calls : List (Sys × (ℕ → ℕ → ℝ))) :
    (Machine.rounded fl sph dsph).AccurateFor (fun k => 2 ^ k * 4) δ η sph dsph lmax calls ∧
      List.Forall₂ (InputNear δ) (calls.map (roundedInput fl)) calls :=
  ⟨Machine.rounded_accurate h0 h1 hfl η sph dsph lmax calls, roundedInput_near hfl calls⟩

/-- C102: with enough bits the results of the evaluator are as accurate as one likes: IEEE rounding to `p` significant bits of every
number of the file, of the input, and of the result of every operation. -/
theorem C102_bits (hf : FileOk f) (hz : ∀ z, f.zbl = some z → ZblOk z f.atomicNumbers) (hsrt : Poly.SortFn srt)
    (calls : List (Sys × (ℕ → ℕ → ℝ))) (hc : ∀ q ∈ calls, Regular f sph dsph q) {ε : ℝ} (hε : 0 < ε) :
    ∃ P' s0', MACE.load srt sph dsph f = some (P', s0') ∧ ∃ p0 : ℕ, ∀ p ≥ p0,
      ∃ P s0 outs, Num.load (A := rounded (Spec.roundTo p)) srt (Spec.roundTo p) (Machine.rounded (Spec.roundTo p) sph dsph).sph
          (Machine.rounded (Spec.roundTo p) sph dsph).dsph (Spec.roundTo p (2 * Real.sqrt Real.pi)) f = some (P, s0) ∧
        Num.runAll (A := rounded (Spec.roundTo p)) (f.zbl.map (Num.loadZbl (Spec.roundTo p))) P (calls.map (roundedInput (Spec.roundTo p))) s0 = some outs ∧
        List.Forall₂ (ResultNear f P' s0' ε) outs calls := by
  obtain ⟨P', s0', h1, δ, h2, h3, h4⟩ := C102_convergence hf hz hsrt calls hc (fun k => 2 ^ k * 4) one_pos hε
  refine ⟨P', s0', h1, ?_⟩
  obtain ⟨p0, hp0⟩ := exists_pow_lt_of_lt_one h2 (show (1 / 2 : ℝ) < 1 by norm_num)
  refine ⟨p0, fun p hp => ?_⟩
  have hfl : ∀ x, Close δ (Spec.roundTo p x) x := fun x _ => by
    have e1 := (Rounding.roundTo_err p).err x
    have e2 : (1 : ℝ) / 2 ^ p ≤ δ := by
      rw [← one_div_pow]
      exact (pow_le_pow_of_le_one (by norm_num) (by norm_num) hp).trans hp0.le
    have e3 := abs_nonneg x
    exact e1.trans ((mul_le_mul_of_nonneg_right e2 e3).trans (mul_le_mul_of_nonneg_left (by linarith) h2.le))
  obtain ⟨k1, k2⟩ := C102_rounded (sph := sph) (dsph := dsph) h2 h3 hfl 1 f.lmax calls
  exact h4 _ k1 _ k2

/-- C102: with exact operations the evaluator of `Model/Num.lean` is the one of `Model/MACE.lean`. -/
theorem C102_exact (hf : FileOk f) (hz : ∀ z, f.zbl = some z → ZblOk z f.atomicNumbers) (hsrt : Poly.SortFn srt)
    (calls : List (Sys × (ℕ → ℕ → ℝ))) (hc : ∀ q ∈ calls, Regular f sph dsph q) :
    ∃ P' s0', MACE.load srt sph dsph f = some (P', s0') ∧
      ∃ P s0 outs, Num.load (A := rounded id) srt id sph dsph (2 * Real.sqrt Real.pi) f = some (P, s0) ∧
        Num.runAll (A := rounded id) (f.zbl.map (Num.loadZbl id)) P (calls.map fun q => (q.1, (q.1.graph q.2).xyz, (q.1.graph q.2).r)) s0 = some outs ∧
        List.Forall₂ (fun out q => ∃ s', computeNodeEnergiesForces f.zbl P' (q.1.graph q.2) s0' = some s' ∧ out = (s'.nodeEnergies, s'.nodeForces))
          outs calls := by
  have key : ∀ ε : ℝ, 0 < ε → ∃ P' s0', MACE.load srt sph dsph f = some (P', s0') ∧
      ∃ P s0 outs, Num.load (A := rounded id) srt id sph dsph (2 * Real.sqrt Real.pi) f = some (P, s0) ∧
        Num.runAll (A := rounded id) (f.zbl.map (Num.loadZbl id)) P (calls.map fun q => (q.1, (q.1.graph q.2).xyz, (q.1.graph q.2).r)) s0 = some outs ∧
        List.Forall₂ (ResultNear f P' s0' ε) outs calls := by
    intro ε hε
    obtain ⟨P', s0', h1, δ, h2, h3, h4⟩ := C102_convergence hf hz hsrt calls hc (fun k => 2 ^ k * 4) one_pos hε
    obtain ⟨k1, k2⟩ := C102_rounded (sph := sph) (dsph := dsph) h2 h3 (fun x => Close.refl h2 (id x)) 1 f.lmax calls
    have e : calls.map (roundedInput id) = calls.map fun q => (q.1, (q.1.graph q.2).xyz, (q.1.graph q.2).r) := by
      refine List.map_congr_left fun q _ => ?_
      unfold roundedInput
      rw [List.map_id, List.map_id]
    rw [e] at k2
    exact ⟨P', s0', h1, h4 _ k1 _ k2⟩
  obtain ⟨P', s0', h1, P, s0, outs, h2, h3, h4⟩ := key 1 one_pos
  refine ⟨P', s0', h1, P, s0, outs, h2, h3, ?_⟩
  have all : ∀ ε : ℝ, 0 < ε → List.Forall₂ (ResultNear f P' s0' ε) outs calls := by
    intro ε hε
    obtain ⟨_, _, k1, _, _, _, k2, k3, k4⟩ := key ε hε
    rw [h1] at k1
    rw [h2] at k2
    cases k1
    cases k2
    rw [h3] at k3
    cases k3
    exact k4
  have buf : ∀ xs ys : List ℝ, (∀ ε : ℝ, 0 < ε → BufNear ε xs ys) → xs = ys := by
    intro xs ys h
    refine List.forall₂_eq_eq_eq ▸ ?_
    rw [List.forall₂_iff_get]
    refine ⟨(h 1 one_pos).length_eq, fun i hx hy => ?_⟩
    refine eq_of_abs_sub_nonpos (le_of_forall_pos_le_add fun ε hε => ?_)
    rw [zero_add]
    exact (List.forall₂_iff_get.mp (h ε hε)).2 i hx hy
  clear key h3
  rw [List.forall₂_iff_get]
  refine ⟨h4.length_eq, fun i hx hy => ?_⟩
  obtain ⟨s', m1, -, -⟩ := (List.forall₂_iff_get.mp h4).2 i hx hy
  have m2 : ∀ ε : ℝ, 0 < ε → BufNear ε (outs.get ⟨i, hx⟩).1 s'.nodeEnergies ∧ BufNear ε (outs.get ⟨i, hx⟩).2 s'.nodeForces := by
    intro ε hε
    obtain ⟨s2, n1, n2, n3⟩ := (List.forall₂_iff_get.mp (all ε hε)).2 i hx hy
    rw [m1] at n1
    cases n1
    exact ⟨n2, n3⟩
  exact ⟨s', m1, Prod.ext (buf _ _ fun ε hε => (m2 ε hε).1) (buf _ _ fun ε hε => (m2 ε hε).2)⟩

/-- The hypotheses hold for two successive calls with two atoms. -/
example : FileOk exFile ∧ (∀ z, exFile.zbl = some z → ZblOk z exFile.atomicNumbers) ∧
    ∀ q ∈ [(exSys, exX), (exSys, exX)], Regular exFile exSph exDsph q := by
  refine ⟨exFile_ok, fun z hz => ?_, fun q hq => ?_⟩
  · simp only [exFile, Option.some.injEq] at hz
    subst hz
    exact ⟨by norm_num, by simp [exFile]⟩
  · have hq : q = (exSys, exX) := by simpa using hq
    subst hq
    refine ⟨exSys_ok, exInside, exScales, fun e _ => ⟨fun lm _ => ?_, fun i _ lm _ => ?_⟩⟩
    · unfold exSph
      split_ifs <;> fun_prop
    · unfold exDsph
      fun_prop

end Verif.Props
