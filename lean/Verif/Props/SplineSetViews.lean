import Verif.Model.Kokkos.SplineSetViews
import Verif.Lemmas.Kokkos.Doomed
import Verif.Lemmas.Kokkos.SplineClasses

/-! # Property theorem: `CubicSplineSetKokkos` from views (C119) -/

namespace Verif.Props
open Verif.Par Verif.Par.Prog Verif.Kokkos Verif.Spline

variable {K : Type} [Field K]

/-- C119 fails: whatever the missing extent is taken to be, unless it happens to be at least the number of splines, the constructor writes
out of range for every table with an interval and a spline, in every order of its threads. -/
theorem C119_fails (V : Env K) (x : ℕ) (h : K) (vals derivs : View K) (hn : 2 ≤ vals.extent 1) (hS : 1 ≤ vals.extent 0)
    (hx : x < vals.extent 0 ∨ vals.extent 0 < 4) : SetK.mkViews? V x h vals derivs = none := by
  unfold SetK.mkViews?
  have h1 : less1 (vals.extent 1) = some (vals.extent 1 - 1) := by
    unfold less1
    rw [if_neg (by omega)]
  have hd : Doomed (setViewsK h (vals.extent 1 - 1) (vals.extent 0) vals derivs (fun _ => [vals.extent 1 - 1, vals.extent 0, x])) := by
    refine Doomed.parFor (i := 0) (by omega) (Doomed.parFor (i := vals.extent 0 - 1) (by omega) (Doomed.opt _ (fun q _ =>
      Doomed.seq _ (Doomed.seq _ (Doomed.seq _ ?_)))))
    unfold put
    refine Doomed.opt _ (fun p hp => ?_)
    exfalso
    simp only [flat] at hp
    have : ¬ (3 < vals.extent 0 ∧ vals.extent 0 - 1 < x) := by omega
    split_ifs at hp <;> first | omega | simp at hp
  have hl : V.L.launch1 (setViewsK h (vals.extent 1 - 1) (vals.extent 0) vals derivs (fun _ => [vals.extent 1 - 1, vals.extent 0, x]))
      (View.new [vals.extent 1 - 1, vals.extent 0, x] 0) = none := by
    unfold Launcher.launch1 Launcher.launch
    rw [hd.outcome (V.L.legal _ _)]
    rfl
  simp only [h1, Option.bind_eq_bind, Option.bind_some, hl, Option.bind_none]

/-- C119 fails for all tables with what Kokkos takes for a missing extent, 0 or 1. -/
theorem C119_violated (V : Env K) (x : ℕ) (hx : x ≤ 1) (h : K) (vals derivs : View K) (hn : 2 ≤ vals.extent 1) (hS : 1 ≤ vals.extent 0) :
    SetK.mkViews? V x h vals derivs = none :=
  C119_fails V x h vals derivs hn hS (by omega)

/-- C119, what holds: started on a view with the extents `num_nodes-1`, 4, `num_splines`, the functor computes the coefficients of the
other constructor, in every order of its threads.  Missing: the constructor does not allocate such a view, see `C119_violated`. -/
theorem C119_functor_partial (V : Env K) (h : K) {S n : ℕ} {rows drows : List (List K)} (H : Rect S n rows drows) (hS : 0 < S) (hn : 0 < n)
    (vals derivs : View K) (hv : ∀ j < S, ∀ i < n, vals.get [j, i] = rows[j]?.bind (fun l => l[i]?))
    (hd : ∀ j < S, ∀ i < n, derivs.get [j, i] = drows[j]?.bind (fun l => l[i]?)) :
    ∃ (s : SetK K) (c : View K), SetK.mk? h rows drows = some s ∧
      V.L.launch1 (setViewsK h (n - 1) S vals derivs (fun _ => [n - 1, 4, S])) (View.new [n - 1, 4, S] 0) = some c ∧
      ∀ i < n - 1, ∀ q < 4, ∀ j < S, c.get [i, q, j] = s.c.get [i, q, j] := by
  obtain ⟨s, s1, -, -, -, -, s2⟩ := setK_mk h H hS hn
  have hp : Lc (fun _ => [n - 1, 4, S]) (setViewsK h (n - 1) S vals derivs (fun _ => [n - 1, 4, S]))
      (ex (n - 1) fun i => ex S fun j => {((), [i, 0, j])} ∪ ({((), [i, 1, j])} ∪ ({((), [i, 2, j])} ∪ {((), [i, 3, j])})))
      (fun a _ => d3 (coefOf h rows drows) a.2) := by
    refine Lc.parFor (fun i hi => Lc.parFor (fun j hj => ?_) ?_) ?_
    · obtain ⟨vj, dj, a1, a2, a3, a4⟩ := H.get hj (show i < n by omega)
      obtain ⟨vj', dj', b1, b2, b3, b4⟩ := H.get hj (show i + 1 < n by omega)
      have g1 := hv j hj i (by omega)
      have g2 := hv j hj (i + 1) (by omega)
      have g3 := hd j hj i (by omega)
      have g4 := hd j hj (i + 1) (by omega)
      rw [a1, Option.bind_some, a3] at g1
      rw [b1, Option.bind_some, b3] at g2
      rw [a2, Option.bind_some, a4] at g3
      rw [b2, Option.bind_some, b4] at g4
      refine Lc.opt (a := ((at2 rows j i, at2 drows j i), (at2 rows j (i + 1), at2 drows j (i + 1)))) ?_ ?_
      · rw [g1, g2, g3, g4]
        rfl
      refine Lc.seqDisj (Lc.put (fun _ => rfl)) (Lc.seqDisj (Lc.put (fun _ => rfl)) (Lc.seqDisj (Lc.put (fun _ => rfl)) (Lc.put (fun _ => rfl))
        ?_) ?_) ?_
      all_goals
        rintro a rfl
        simp
    · intro x _ y _ a h1 h2
      simp only [Set.mem_union, Set.mem_singleton_iff] at h1 h2
      rcases h1 with rfl | rfl | rfl | rfl <;> simp at h2 <;> omega
    · rintro x _ y _ a ⟨j, hj, h1⟩ ⟨j', hj', h2⟩
      simp only [Set.mem_union, Set.mem_singleton_iff] at h1 h2
      rcases h1 with rfl | rfl | rfl | rfl <;> simp at h2 <;> omega
  obtain ⟨c, k1, -, -, k4, -⟩ := launch1_any V.L (v := View.new [n - 1, 4, S] (0 : K)) hp (by
    rintro a ⟨i, hi, j, hj, ha⟩
    simp only [Set.mem_union, Set.mem_singleton_iff, Prod.mk.injEq, true_and] at ha
    rcases ha with rfl | rfl | rfl | rfl <;> exact ⟨0, View.get_new (flat_three hi (by omega) hj) 0⟩)
  refine ⟨s, c, s1, k1, fun i hi q hq j hj => ?_⟩
  rw [s2 i hi q hq j hj, k4 [i, q, j] 0 ⟨i, hi, j, hj, ?_⟩ (View.get_new (flat_three hi hq hj) 0)]
  · rfl
  · simp only [Set.mem_union, Set.mem_singleton_iff, Prod.mk.injEq, true_and, List.cons.injEq, and_true]
    omega

/-- Tables with two splines and three nodes: views with the entries of the rows. -/
example : Rect 2 3 [[(0 : ℚ), 1, 2], [3, 4, 5]] [[1, 1, 1], [1, 1, 1]] ∧
    (∀ j < 2, ∀ i < 3, (View.mk [2, 3] [0, 1, 2, 3, 4, 5] : View ℚ).get [j, i] = ([[(0 : ℚ), 1, 2], [3, 4, 5]] : List (List ℚ))[j]?.bind (fun l => l[i]?)) ∧
    2 ≤ (View.mk [2, 3] [0, 1, 2, 3, 4, 5] : View ℚ).extent 1 ∧ 1 ≤ (View.mk [2, 3] [0, 1, 2, 3, 4, 5] : View ℚ).extent 0 := by
  refine ⟨⟨rfl, rfl, by simp, by simp⟩, ?_, by decide, by decide⟩
  intro j hj i hi
  interval_cases j <;> interval_cases i <;> rfl

end Verif.Props
