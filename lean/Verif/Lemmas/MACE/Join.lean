import Verif.Lemmas.MACE.Cover

/-! # Two systems in one call -/

namespace Verif.MACE
open Verif.Spec

/-- The nodes of `T1` followed by those of `T2`, without edges between them. -/
def Sys.join (T1 T2 : Sys) : Sys where
  N := T1.N + T2.N
  types := T1.types.take T1.N ++ T2.types
  nn := T1.nn.take T1.N ++ T2.nn
  idx := T1.idx.take T1.E ++ T2.idx.map (fun j => T1.N + j)
  ntypes := T1.ntypes.take T1.E ++ T2.ntypes

/-- The bond vectors of `T1` followed by those of `T2`. -/
def joinX (T1 : Sys) (X1 X2 : ℕ → ℕ → ℝ) : ℕ → ℕ → ℝ := fun e => if e < T1.E then X1 e else X2 (e - T1.E)

variable {f : File} {sph : ℝ → ℝ → ℝ → ℕ → ℝ} {dsph : ℝ → ℝ → ℝ → ℕ → ℕ → ℝ} {T1 T2 : Sys} {X1 X2 : ℕ → ℕ → ℝ}

theorem nthN_left {l m : List ℕ} {n i : ℕ} (h : i < n) (hl : n ≤ l.length) : nthN (l.take n ++ m) i = nthN l i := by
  unfold nthN
  rw [List.getElem?_append_left (by rw [List.length_take]; omega), List.getElem?_take_of_lt h]

theorem nthN_right {l m : List ℕ} {n i : ℕ} (hl : n ≤ l.length) : nthN (l.take n ++ m) (n + i) = nthN m i := by
  unfold nthN
  rw [List.getElem?_append_right (by rw [List.length_take]; omega), List.length_take, min_eq_left hl, Nat.add_sub_cancel_left]

theorem sum_left {l m : List ℕ} {n i : ℕ} (h : i ≤ n) (hl : n ≤ l.length) :
    ((l.take n ++ m).take i).sum = (l.take i).sum := by
  rw [List.take_append_of_le_length (by rw [List.length_take]; omega), List.take_take, min_eq_left h]

theorem sum_right {l m : List ℕ} {n i : ℕ} (hl : n ≤ l.length) :
    ((l.take n ++ m).take (n + i)).sum = (l.take n).sum + (m.take i).sum := by
  rw [List.take_append, List.length_take, min_eq_left hl, Nat.add_sub_cancel_left, List.take_take,
    min_eq_right (by omega), List.sum_append]

section
variable (h1 : SysOk f T1) (h2 : SysOk f T2)
include h1

theorem join_E : (T1.join T2).E = T1.E + T2.E := sum_right h1.nn

theorem join_edg1 {i : ℕ} (hi : i < T1.N) : (T1.join T2).edg i = T1.edg i := by
  unfold Sys.edg Sys.join
  rw [sum_left (by omega) h1.nn, sum_left (by omega) h1.nn]

theorem mem_join_edg2 {i e : ℕ} : T1.E + e ∈ (T1.join T2).edg (T1.N + i) ↔ e ∈ T2.edg i := by
  unfold Sys.edg Sys.join
  rw [add_assoc, sum_right h1.nn, sum_right h1.nn, Finset.mem_Ico, Finset.mem_Ico]
  show _ ≤ T1.E + e ∧ _ ↔ _
  unfold Sys.E
  omega

theorem join_edg2 {i e : ℕ} (he : e ∈ (T1.join T2).edg (T1.N + i)) : T1.E ≤ e := by
  unfold Sys.edg Sys.join at he
  rw [sum_right h1.nn, Finset.mem_Ico] at he
  unfold Sys.E
  omega

theorem env1 {i : ℕ} (hi : i < T1.N) : SameEnv T1 X1 (T1.join T2) (joinX T1 X1 X2) i i id := by
  refine ⟨nthN_left hi h1.types, ?_, fun e he a _ => ?_, fun e he => nthN_left (edg_lt hi he) h1.ntypes⟩
  · rw [join_edg1 h1 hi]; exact Set.bijOn_id _
  · simp [joinX, edg_lt hi he]

theorem env2 {i : ℕ} : SameEnv T2 X2 (T1.join T2) (joinX T1 X1 X2) i (T1.N + i) (fun e => T1.E + e) := by
  refine ⟨nthN_right h1.types, ⟨fun e he => (mem_join_edg2 h1).mpr he, fun a _ b _ h => by simpa using h, fun e he => ?_⟩,
    fun e he a _ => ?_, fun e he => nthN_right h1.ntypes⟩
  · obtain ⟨d, rfl⟩ := Nat.exists_eq_add_of_le (join_edg2 h1 he)
    exact ⟨d, (mem_join_edg2 h1).mp he, rfl⟩
  · simp [joinX]

theorem join_idx1 {e : ℕ} (he : e < T1.E) : nthN (T1.join T2).idx e = nthN T1.idx e := nthN_left he h1.idx

include h2

theorem join_idx2 {e : ℕ} (he : e < T2.E) : nthN (T1.join T2).idx (T1.E + e) = T1.N + nthN T2.idx e := by
  unfold Sys.join
  dsimp only
  rw [nthN_right h1.idx]
  have := h2.idx
  unfold nthN
  rw [List.getElem?_map, List.getElem?_eq_getElem (by omega)]
  rfl

theorem join_ok : SysOk f (T1.join T2) := by
  have hE := join_E h1 (T2 := T2)
  have a1 := h1.types; have a2 := h2.types; have b1 := h1.nn; have b2 := h2.nn
  have c1 := h1.idx; have c2 := h2.idx; have d1 := h1.ntypes; have d2 := h2.ntypes
  refine ⟨?_, fun i hi => ?_, ?_, ?_, fun e he => ?_, ?_, fun e he => ?_⟩
  · simp only [Sys.join, List.length_append, List.length_take]; omega
  · rcases lt_or_ge i T1.N with h | h
    · rw [show nthN (T1.join T2).types i = _ from nthN_left h h1.types]; exact h1.typ i h
    · obtain ⟨j, rfl⟩ := Nat.exists_eq_add_of_le h
      rw [show nthN (T1.join T2).types (T1.N + j) = _ from nthN_right h1.types]
      exact h2.typ j (by simpa [Sys.join] using hi)
  · simp only [Sys.join, List.length_append, List.length_take]; omega
  · rw [hE]; simp only [Sys.join, List.length_append, List.length_take, List.length_map]; omega
  · rw [hE] at he
    rcases lt_or_ge e T1.E with h | h
    · rw [join_idx1 h1 h]; exact lt_of_lt_of_le (h1.nbr e h) (Nat.le_add_right _ _)
    · obtain ⟨j, rfl⟩ := Nat.exists_eq_add_of_le h
      rw [join_idx2 h1 h2 (by omega)]
      exact Nat.add_lt_add_left (h2.nbr j (by omega)) _
  · rw [hE]; simp only [Sys.join, List.length_append, List.length_take]; omega
  · rw [hE] at he
    rcases lt_or_ge e T1.E with h | h
    · rw [show nthN (T1.join T2).ntypes e = _ from nthN_left h h1.ntypes]; exact h1.nty e h
    · obtain ⟨j, rfl⟩ := Nat.exists_eq_add_of_le h
      rw [show nthN (T1.join T2).ntypes (T1.E + j) = _ from nthN_right h1.ntypes]
      exact h2.nty j (by omega)

theorem join_inside (hX1 : Inside f T1 X1) (hX2 : Inside f T2 X2) : Inside f (T1.join T2) (joinX T1 X1 X2) := by
  intro e he
  rw [join_E h1] at he
  unfold joinX
  split_ifs with h
  · exact hX1 e h
  · exact hX2 _ (by omega)

theorem energy1 {i : ℕ} (hi : i < T1.N) : energy (netOf f) (confOf f sph (T1.join T2) (joinX T1 X1 X2)) i
    = energy (netOf f) (confOf f sph T1 X1) i := by
  have hj : ∀ {i}, i < T1.N → i < (T1.join T2).N := fun h => lt_of_lt_of_le h (Nat.le_add_right _ _)
  refine (env1 h1 hi).energy hi (hj hi) (fun e he LM k => ?_)
  have hn := h1.nbr e (edg_lt hi he)
  rw [id, join_idx1 h1 (edg_lt hi he)]
  exact (env1 h1 hn).h1 hn (hj hn) k LM

theorem energy2 {i : ℕ} (hi : i < T2.N) : energy (netOf f) (confOf f sph (T1.join T2) (joinX T1 X1 X2)) (T1.N + i)
    = energy (netOf f) (confOf f sph T2 X2) i := by
  have hj : ∀ {i}, i < T2.N → T1.N + i < (T1.join T2).N := fun h => Nat.add_lt_add_left h _
  refine (env2 h1).energy hi (hj hi) (fun e he LM k => ?_)
  have hn := h2.nbr e (edg_lt hi he)
  rw [join_idx2 h1 h2 (edg_lt hi he)]
  exact (env2 h1).h1 hn (hj hn) k LM

omit h1 h2 in
theorem tab_add {α : Type*} (n m : ℕ) (g : ℕ → α) : tab (n + m) g = tab n g ++ tab m (fun i => g (n + i)) := by
  simp [tab, List.range_add]

theorem join_energies : tab (T1.join T2).N (energy (netOf f) (confOf f sph (T1.join T2) (joinX T1 X1 X2)))
    = tab T1.N (energy (netOf f) (confOf f sph T1 X1)) ++ tab T2.N (energy (netOf f) (confOf f sph T2 X2)) := by
  unfold Sys.join
  dsimp only
  rw [tab_add]
  congr 1
  · exact tab_congr (fun i hi => energy1 h1 h2 hi)
  · exact tab_congr (fun i hi => energy2 h1 h2 hi)

theorem join_total : ∑ i ∈ Finset.range (T1.join T2).N, energy (netOf f) (confOf f sph (T1.join T2) (joinX T1 X1 X2)) i
    = (∑ i ∈ Finset.range T1.N, energy (netOf f) (confOf f sph T1 X1) i) +
      ∑ i ∈ Finset.range T2.N, energy (netOf f) (confOf f sph T2 X2) i := by
  show ∑ i ∈ Finset.range (T1.N + T2.N), _ = _
  rw [Finset.sum_range_add]
  congr 1
  · exact Finset.sum_congr rfl (fun i hi => energy1 h1 h2 (Finset.mem_range.mp hi))
  · exact Finset.sum_congr rfl (fun i hi => energy2 h1 h2 (Finset.mem_range.mp hi))

end

/-- Each part is covered by the joined system. -/
theorem join_covers1 (h1 : SysOk f T1) (h2 : SysOk f T2) : Covers T1 X1 (T1.join T2) (joinX T1 X1 X2) id id := by
  refine ⟨fun i hi => lt_of_lt_of_le hi (Nat.le_add_right _ _), fun i hi => env1 h1 hi, fun e he => join_idx1 h1 he,
    fun v hv => ⟨?_, fun e _ e' _ h => h, ?_⟩⟩
  · rintro e ⟨he, rfl⟩
    exact ⟨by rw [join_E h1]; exact Nat.lt_add_right _ he, join_idx1 h1 he⟩
  · rintro e ⟨he, hv'⟩
    rw [join_E h1] at he
    rcases lt_or_ge e T1.E with h | h
    · exact ⟨e, ⟨h, by rw [← join_idx1 h1 h]; exact hv'⟩, rfl⟩
    · obtain ⟨j, rfl⟩ := Nat.exists_eq_add_of_le h
      rw [join_idx2 h1 h2 (by omega), id] at hv'
      omega

theorem join_covers2 (h1 : SysOk f T1) (h2 : SysOk f T2) :
    Covers T2 X2 (T1.join T2) (joinX T1 X1 X2) (fun i => T1.N + i) (fun e => T1.E + e) := by
  refine ⟨fun i hi => Nat.add_lt_add_left hi _, fun i _ => env2 h1, fun e he => join_idx2 h1 h2 he,
    fun v hv => ⟨?_, fun e _ e' _ h => Nat.add_left_cancel h, ?_⟩⟩
  · rintro e ⟨he, rfl⟩
    exact ⟨by rw [join_E h1]; exact Nat.add_lt_add_left he _, join_idx2 h1 h2 he⟩
  · rintro e ⟨he, hv'⟩
    rw [join_E h1] at he
    rcases lt_or_ge e T1.E with h | h
    · rw [join_idx1 h1 h] at hv'
      have := h1.nbr e h
      omega
    · obtain ⟨j, rfl⟩ := Nat.exists_eq_add_of_le h
      rw [join_idx2 h1 h2 (by omega)] at hv'
      exact ⟨j, ⟨by omega, by omega⟩, rfl⟩

theorem join_forces (h1 : SysOk f T1) (h2 : SysOk f T2) :
    tab2 (T1.join T2).E 3 (forceOf f sph dsph (T1.join T2) (joinX T1 X1 X2))
      = tab2 T1.E 3 (forceOf f sph dsph T1 X1) ++ tab2 T2.E 3 (forceOf f sph dsph T2 X2) := by
  have hE := join_E h1 (T2 := T2)
  refine (eq_tab2_iff.mpr ⟨?_, fun e he a ha => ?_⟩).symm
  · rw [List.length_append, length_tab2, length_tab2, hE]; ring
  · rw [hE] at he
    rcases lt_or_ge e T1.E with h | h
    · rw [List.getElem?_append_left (by rw [length_tab2]; omega), getElem?_tab2 h ha,
        ← (join_covers1 (X1 := X1) (X2 := X2) h1 h2).force h1.nbr h ha, id]
    · obtain ⟨j, rfl⟩ := Nat.exists_eq_add_of_le h
      have hj : j < T2.E := by omega
      rw [List.getElem?_append_right (by rw [length_tab2]; nlinarith), length_tab2,
        show (T1.E + j) * 3 + a - T1.E * 3 = j * 3 + a by omega, getElem?_tab2 hj ha,
        ← (join_covers2 (X1 := X1) (X2 := X2) h1 h2).force h2.nbr hj ha]

end Verif.MACE
