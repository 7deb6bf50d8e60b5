import Verif.Lemmas.IntIndex.Phi

/-! When the loops over the edges end without overflow, every edge was evaluated without overflow. -/

namespace Verif.IntIndex
open Verif.MACE Verif.Spec

variable {f : File} {T : Sys}

theorem inner_imp {n ij r : ℕ} {g : ℕ → Option Unit} (h : inner n g ij = some r) : r = ij + n ∧ ∀ k < n, g (ij + k) = some () := by
  induction n generalizing r with
  | zero => exact ⟨by simpa [inner] using h.symm, fun k hk => by omega⟩
  | succ n ih =>
    have h' : (inner n g ij).bind (fun ij => (g ij).bind (fun _ => (ev ((ij : Ex) + 1)).bind (fun _ => some (ij + 1)))) = some r := h
    obtain ⟨s, hs, h2⟩ := Option.bind_eq_some_iff.1 h'
    obtain ⟨u, hu, h3⟩ := Option.bind_eq_some_iff.1 h2
    obtain ⟨v, hv, h4⟩ := Option.bind_eq_some_iff.1 h3
    obtain ⟨rfl, hk⟩ := ih hs
    simp only [Option.some.injEq] at h4
    refine ⟨by omega, fun k hk' => ?_⟩
    rcases Nat.lt_or_ge k n with hlt | hge
    · exact hk k hlt
    · rw [show k = n by omega]; exact hu

theorem edges_imp {pre post : ℕ → Option Unit} {g : ℕ → ℕ → Option Unit} (hn : T.N ≤ T.nn.length)
    (h : edges T pre g post = some ()) : ∀ e < T.E, ∃ i < T.N, g i e = some () := by
  have key : ∀ m ≤ T.N, ∀ s, loop m (fun i ij => (do
      pre i
      let ij ← inner (nthN T.nn i) (g i) ij
      post i
      pure ij : Option ℕ)) 0 = some s → s = pos T m ∧ ∀ e < pos T m, ∃ i < m, g i e = some () := by
    intro m
    induction m with
    | zero => intro _ s hs; exact ⟨by simpa [pos] using hs.symm, fun e he => by simp [pos] at he⟩
    | succ m ih =>
      intro hm s hs
      rw [loop_succ] at hs
      obtain ⟨t, ht, h2⟩ := Option.bind_eq_some_iff.1 hs
      obtain ⟨rfl, hold⟩ := ih (by omega) t ht
      obtain ⟨u, hu, h3⟩ := Option.bind_eq_some_iff.1 h2
      obtain ⟨r, hr, h4⟩ := Option.bind_eq_some_iff.1 h3
      obtain ⟨v, hv, h5⟩ := Option.bind_eq_some_iff.1 h4
      obtain ⟨rfl, hk⟩ := inner_imp hr
      have hp := pos_succ T (i := m) (by omega)
      refine ⟨by rw [hp]; simpa using h5.symm, fun e he => ?_⟩
      rcases Nat.lt_or_ge e (pos T m) with hlt | hge
      · obtain ⟨i, hi, hgi⟩ := hold e hlt
        exact ⟨i, by omega, hgi⟩
      · refine ⟨m, by omega, ?_⟩
        have := hk (e - pos T m) (by omega)
        rwa [show pos T m + (e - pos T m) = e by omega] at this
  unfold edges at h
  obtain ⟨s, hs, _⟩ := Option.map_eq_some_iff.1 h
  exact (key T.N le_rfl s hs).2

/-- The offset of the last edge in the table of radial functions does not fit. -/
theorem computeR_none {ns : ℕ} (cell : ℕ → ℕ) (hn : T.N ≤ T.nn.length) (hE : 0 < T.E) (h : 2 ^ 31 ≤ (T.E - 1) * ns) :
    computeR ns cell T = none := by
  cases hc : computeR ns cell T with
  | none => rfl
  | some u =>
    obtain ⟨i, hi, hg⟩ := edges_imp hn hc (T.E - 1) (by omega)
    obtain ⟨v, hv, _⟩ := Option.bind_eq_some_iff.1 hg
    rw [ev_iff] at hv
    simp only [ok_mul, ok_n, val_n, true_and] at hv
    exact absurd (lt_of_le_of_lt h hv) (by norm_num)

theorem computeInts_none0 (cell : ℕ → ℕ) (h : computeR (spl0 f) cell T = none) : computeInts f T cell = none := by
  unfold computeInts
  refine seq_none (seq_none ?_)
  simp only [h]
  rfl

theorem computeInts_none1 (cell : ℕ → ℕ) (h : computeR (spl1 f) cell T = none) : computeInts f T cell = none := by
  unfold computeInts
  refine seq_none (seq_none (seq_none (seq_none (seq_none (seq_none (seq_none ?_))))))
  simp only [h]
  rfl

end Verif.IntIndex
