import Verif.Lemmas.MACE.Load

/-! # `load_from_json` succeeds on well-formed files -/

namespace Verif.MACE
open Verif.Spec Verif.Spline

variable {f : File}

theorem flat_lt' {A C a c n : ℕ} (ha : a < A) (hc : c < C) (h : A * C ≤ n) : a * C + c < n :=
  lt_of_lt_of_le (flat_lt ha hc) h

theorem bind_ex {α β : Type} {o : Option α} {a : α} {g : α → Option β} {Q : β → Prop} (h : o = some a)
    (h2 : ∃ x, g a = some x ∧ Q x) : ∃ x, o.bind g = some x ∧ Q x := by
  subst h; exact h2

theorem pairs_pos (hf : FileOk f) : 0 < (pairList f.nT).length := by
  have h := two_mul_pairList_length f.nT
  have : 0 < f.nT * (f.nT + 1) := Nat.mul_pos hf.nT (Nat.succ_pos _)
  omega

theorem load_spec (hf : FileOk f) {srt : List (List (List ℕ)) → List (List (List ℕ))} (hs : Poly.SortFn srt)
    (sph : ℝ → ℝ → ℝ → ℕ → ℝ) (dsph : ℝ → ℝ → ℝ → ℕ → ℕ → ℝ) :
    ∃ P s0, load srt sph dsph f = some (P, s0) ∧ Loaded f sph dsph P ∧ StOk f s0 := by
  obtain ⟨S0, hS0, gS0⟩ := splines_load (h := f.splH) (S := (f.lmax + 1) * f.numChannels) (n := f.nodes0) hf.vals0 hf.ders0
    (fun i hi => ⟨(hf.rows0 i hi).1, (hf.rows0 i hi).2.1, (hf.rows0 i hi).2.2.1, (hf.rows0 i hi).2.2.2⟩)
    (Nat.mul_pos (Nat.succ_pos _) hf.C) hf.nodes0
  obtain ⟨S1, hS1, gS1⟩ := splines_load (h := f.splH) (S := f.phil.length * f.numChannels) (n := f.nodes1) hf.vals1 hf.ders1
    (fun i hi => ⟨(hf.rows1 i hi).1, (hf.rows1 i hi).2.1, (hf.rows1 i hi).2.2.1, (hf.rows1 i hi).2.2.2⟩)
    (Nat.mul_pos hf.nP hf.C) hf.nodes1
  obtain ⟨A0, hA0, gA0⟩ := cubics_load hf.A0s
  obtain ⟨A1, hA1, gA1⟩ := cubics_load hf.A1s
  obtain ⟨P0, hP0, gP0⟩ := P0_load hf hs
  obtain ⟨P1, hP1, gP1⟩ := P1_load hf hs
  obtain ⟨ro, hro, gro, wro⟩ := MLP.mk?_spec f.ro2scale (roMatching hf)
  suffices h : ∃ q, load srt sph dsph f = some q ∧ Loaded f sph dsph q.1 ∧ StOk f q.2 by
    obtain ⟨q, h1, h2⟩ := h
    exact ⟨q.1, q.2, h1, h2⟩
  unfold load
  refine bind_ex hS0 (bind_ex hS1 (bind_ex hA0 (bind_ex hP0 (bind_ex (numLelm_eq hf) (bind_ex hA1 (bind_ex hP1
    (bind_ex hro ⟨_, rfl, ?_, ⟨gP0, gP1, gro, wro⟩⟩)))))))
  have hp := pairs_pos hf
  have net := netOk hf
  refine ⟨?_, rfl, rfl, rfl, rfl, rfl, ?_, ?_, rfl, rfl, gA0, gA1⟩
  · constructor
    · rfl
    · rfl
    · rfl
    · intro t ht k hk
      exact some_nth (flat_lt' ht hk hf.H0w)
    · intro t ht
      have h1 : t < f.A0w.length := by have := hf.A0w.1; omega
      obtain ⟨h2, h3⟩ := hf.A0w.2 _ (tbl_mem h1)
      refine ⟨_, some_tbl h1, fun l hl => ?_⟩
      have hl' : l < (tbl f.A0w t).length := by
        have : l < f.lmax + 1 := hl
        omega
      refine ⟨_, some_row hl', fun k' hk' k hk => ?_⟩
      exact some_nth (flat_lt' hk' hk (h3 _ (row_mem hl')))
    · intro l hl k' hk' k hk
      refine some_nth (lt_of_lt_of_le ?_ hf.H1w)
      have := flat3_lt (show l < f.Lmax + 1 from hl) (show k' < f.numChannels from hk') (show k < f.numChannels from hk)
      have e : (l * f.numChannels + k') * f.numChannels + k
        = l * f.numChannels * f.numChannels + (k' * f.numChannels + k) := by ring
      change l * f.numChannels * f.numChannels + (k' * f.numChannels + k) < _
      omega
    · intro σ body s
      exact triple_eq hf rfl rfl rfl body s
    · intro q hq; exact (coupling_get hf hq).1
    · intro q hq; exact (coupling_get hf hq).2.1
    · intro q hq; exact (coupling_get hf hq).2.2
    · rfl
    · exact nOut_eq hf
    · exact nOut_eq hf
    · exact count_loop (fun l hl => Nat.lt_succ_of_le (hf.phil l hl))
    · rfl
    · intro p hp
      exact some_nthN (lt_of_lt_of_le (show p < f.cg.length from hp) hf.philme.1)
    · exact net.cgOut
    · intro p hp
      exact some_nthN (lt_of_lt_of_le (show p < f.cg.length from hp) hf.philelm.1)
    · exact net.cgIn
    · intro p hp
      exact some_nth hp
    · intro l hl
      have hl : l < f.lmax + 1 := hl
      have h1 : l < f.A1w.length := by have := hf.A1w.1; omega
      refine ⟨_, some_row h1, fun e he k' hk' k hk => ?_⟩
      have := flat3_lt (show e < f.phil.count l from he) (show k' < f.numChannels from hk') (show k < f.numChannels from hk)
      exact some_nth (lt_of_lt_of_le this (hf.A1w.2 l (by omega)))
    · intro t ht
      have h1 : t < f.H2wH1.length := by have := hf.H2wH1.1; omega
      refine ⟨_, some_row h1, fun k' hk' k hk => ?_⟩
      exact some_nth (flat_lt' hk' hk (hf.H2wH1.2 _ (row_mem h1)))
    · intro k' hk' k hk
      exact some_nth (flat_lt' hk' hk hf.H2wM1)
    · intro t ht
      exact some_nth (lt_of_lt_of_le ht hf.energies)
    · intro k hk
      exact some_nth (lt_of_lt_of_le hk hf.ro1)
    · obtain ⟨s, e1, e2, _⟩ := gS1 0 hp
      exact ⟨s, e1, e2⟩
  · intro i hi
    obtain ⟨s, e1, _, e3⟩ := gS0 i hi
    exact ⟨s, e1, e3⟩
  · intro i hi
    obtain ⟨s, e1, _, e3⟩ := gS1 i hi
    exact ⟨s, e1, e3⟩

end Verif.MACE
