import Verif.Model.Kokkos.Tools
import Verif.Lemmas.Kokkos.Host

namespace Verif.Kokkos

theorem flat_cases1 {n p : ℕ} {is : List ℕ} (h : flat [n] is 0 = some p) : ∃ i < n, is = [i] ∧ p = i := by
  match is with
  | [] => simp [flat] at h
  | [i] => obtain ⟨h1, h2⟩ := flat_one_some h; exact ⟨i, h1, rfl, h2⟩
  | i :: j :: is => simp [flat] at h

theorem flat_cases2 {n m p : ℕ} {is : List ℕ} (h : flat [n, m] is 0 = some p) : ∃ i < n, ∃ j < m, is = [i, j] ∧ p = i * m + j := by
  match is with
  | [] => simp [flat] at h
  | [i] => simp [flat] at h
  | [i, j] => obtain ⟨h1, h2, h3⟩ := flat_two_some h; exact ⟨i, h1, j, h2, rfl, h3⟩
  | i :: j :: k :: is => simp [flat] at h

theorem flat_cases3 {n m l p : ℕ} {is : List ℕ} (h : flat [n, m, l] is 0 = some p) :
    ∃ i < n, ∃ j < m, ∃ k < l, is = [i, j, k] ∧ p = (i * m + j) * l + k := by
  match is with
  | [] => simp [flat] at h
  | [i] => simp [flat] at h
  | [i, j] => simp [flat] at h
  | [i, j, k] => obtain ⟨h1, h2, h3, h4⟩ := flat_three_some h; exact ⟨i, h1, j, h2, k, h3, rfl, h4⟩
  | i :: j :: k :: q :: is => simp [flat] at h

variable {K : Type} [Zero K]

/-- A view is its extents and its contents. -/
theorem view_eq {v : View K} {E : List ℕ} {d : List K} (he : v.ext = E) (hv : v.Ok) (hd : d.length = E.prod)
    (h : ∀ is p, flat E is 0 = some p → v.get is = d[p]?) : v = ⟨E, d⟩ := by
  refine View.ext_of_get he hv hd (fun is p hp => ?_)
  rw [he] at hp
  rw [h is p hp]
  unfold View.get
  rw [hp]; rfl

theorem toView1_eq (x : List K) : toView1 x = some ⟨[x.length], x⟩ := by
  unfold toView1
  have hw : HW [x.length] (loop x.length (fun i v => (x[i]?).bind (fun a => View.set v [i] a)))
      (fun js => ∃ i < x.length, js = [i]) (fun js => (x[js.getD 0 0]?).getD 0) := by
    refine Writes.loop (fun i hi => ?_)
    rw [List.getElem?_eq_getElem hi]
    exact HW.set (flat_one hi) (by simp [hi])
  obtain ⟨w, h1, h2, h3, h4⟩ := hw.all (fun is p hp => by
    obtain ⟨i, hi, rfl, -⟩ := flat_cases1 hp; exact ⟨i, hi, rfl⟩) (v := View.new [x.length] 0) rfl (View.new_ok _ _)
  refine h1.trans (congrArg some (view_eq h2 h3 (by simp) (fun is p hp => ?_)))
  rw [h4 is p hp]
  obtain ⟨i, hi, rfl, rfl⟩ := flat_cases1 hp
  simp [hi]

theorem toView2_eq (x : List K) (N0 N1 : ℕ) (hx : N0 * N1 ≤ x.length) :
    toView2 x N0 N1 = some ⟨[N0, N1], x.take (N0 * N1)⟩ := by
  unfold toView2
  have hw : HW [N0, N1] (loop N0 (fun i => loop N1 (fun j v => (x[i * N1 + j]?).bind (fun a => View.set v [i, j] a))))
      (fun js => ∃ i < N0, ∃ j < N1, js = [i, j]) (fun js => (x[js.getD 0 0 * N1 + js.getD 1 0]?).getD 0) := by
    refine Writes.loop (fun i hi => Writes.loop (fun j hj => ?_))
    have hl : i * N1 + j < x.length := lt_of_lt_of_le (flat_lt hi hj) hx
    rw [List.getElem?_eq_getElem hl]
    exact HW.set (flat_two hi hj) (by simp [hl])
  obtain ⟨w, h1, h2, h3, h4⟩ := hw.all (fun is p hp => by
    obtain ⟨i, hi, j, hj, rfl, -⟩ := flat_cases2 hp; exact ⟨i, hi, j, hj, rfl⟩) (v := View.new [N0, N1] 0) rfl (View.new_ok _ _)
  refine h1.trans (congrArg some (view_eq h2 h3 (by simp [hx]) (fun is p hp => ?_)))
  rw [h4 is p hp]
  obtain ⟨i, hi, j, hj, rfl, rfl⟩ := flat_cases2 hp
  have hl : i * N1 + j < x.length := lt_of_lt_of_le (flat_lt hi hj) hx
  rw [List.getElem?_take_of_lt (flat_lt hi hj)]
  simp [hl]

theorem toView3_eq (x : List K) (N0 N1 N2 : ℕ) (hx : N0 * N1 * N2 ≤ x.length) :
    toView3 x N0 N1 N2 = some ⟨[N0, N1, N2], x.take (N0 * N1 * N2)⟩ := by
  unfold toView3
  have hw : HW [N0, N1, N2] (loop N0 (fun i => loop N1 (fun j => loop N2 (fun k v =>
      (x[(i * N1 + j) * N2 + k]?).bind (fun a => View.set v [i, j, k] a)))))
      (fun js => ∃ i < N0, ∃ j < N1, ∃ k < N2, js = [i, j, k])
      (fun js => (x[(js.getD 0 0 * N1 + js.getD 1 0) * N2 + js.getD 2 0]?).getD 0) := by
    refine Writes.loop (fun i hi => Writes.loop (fun j hj => Writes.loop (fun k hk => ?_)))
    have hl : (i * N1 + j) * N2 + k < x.length := lt_of_lt_of_le (flat3_lt hi hj hk) hx
    rw [List.getElem?_eq_getElem hl]
    exact HW.set (flat_three hi hj hk) (by simp [hl])
  obtain ⟨w, h1, h2, h3, h4⟩ := hw.all (fun is p hp => by
    obtain ⟨i, hi, j, hj, k, hk, rfl, -⟩ := flat_cases3 hp; exact ⟨i, hi, j, hj, k, hk, rfl⟩) (v := View.new [N0, N1, N2] 0) rfl
      (View.new_ok _ _)
  refine h1.trans (congrArg some (view_eq h2 h3 (by simp [← mul_assoc, hx]) (fun is p hp => ?_)))
  rw [h4 is p hp]
  obtain ⟨i, hi, j, hj, k, hk, rfl, rfl⟩ := flat_cases3 hp
  have hl : (i * N1 + j) * N2 + k < x.length := lt_of_lt_of_le (flat3_lt hi hj hk) hx
  rw [List.getElem?_take_of_lt (flat3_lt hi hj hk)]
  simp [hl]

theorem get_mk {E is : List ℕ} {d : List K} {p : ℕ} (h : flat E is 0 = some p) : (View.mk E d).get is = d[p]? := by
  unfold View.get
  rw [h]; rfl

/-- Overwriting every cell of a vector with the entries of `x` gives `x`. -/
theorem fill_all {n : ℕ} {x : List K} (hx : x.length = n) {body : List K → Option (List K)} {S : ℕ → Prop}
    (h : Wr n body S (fun p => (x[p]?).getD 0)) (hS : ∀ p < n, S p) : body (List.replicate n 0) = some x := by
  rw [h.tab_of_all hS (by simp)]
  congr 1
  rw [← hx]
  exact (eq_tab_getD x).symm

theorem ofView1_eq (x : List K) : ofView1 (⟨[x.length], x⟩ : View K) = some x := by
  unfold ofView1
  dsimp only
  have e : [x.length].prod = x.length := by simp
  rw [e]
  have hw : Wr x.length (loop x.length (fun i y => ((View.mk [x.length] x).get [i]).bind (fun a => wr y i a)))
      (fun p => ∃ i < x.length, p = i) (fun p => (x[p]?).getD 0) := by
    refine Writes.loop (fun i hi => ?_)
    rw [get_mk (flat_one hi), List.getElem?_eq_getElem hi]
    exact Wr.wr hi (by simp [hi])
  exact fill_all rfl hw (fun p hp => ⟨p, hp, rfl⟩)

theorem ofView2_eq (x : List K) (N0 N1 : ℕ) (hx : x.length = N0 * N1) : ofView2 (⟨[N0, N1], x⟩ : View K) = some x := by
  unfold ofView2
  simp only [View.extent, List.getD_cons_zero, List.getD_cons_succ]
  have e : [N0, N1].prod = N0 * N1 := by simp
  rw [e]
  have hw : Wr (N0 * N1) (loop N0 (fun i => loop N1 (fun j y => ((View.mk [N0, N1] x).get [i, j]).bind (fun a => wr y (i * N1 + j) a))))
      (fun p => ∃ i < N0, ∃ j < N1, p = i * N1 + j) (fun p => (x[p]?).getD 0) := by
    refine Writes.loop (fun i hi => Writes.loop (fun j hj => ?_))
    have hl : i * N1 + j < x.length := hx ▸ flat_lt hi hj
    rw [get_mk (flat_two hi hj), List.getElem?_eq_getElem hl]
    exact Wr.wr (flat_lt hi hj) (by simp [hl])
  exact fill_all hx hw (fun p hp => by
    obtain ⟨i, j, hi, hj, rfl⟩ := flat_decomp hp; exact ⟨i, hi, j, hj, rfl⟩)

theorem ofView3_eq (x : List K) (N0 N1 N2 : ℕ) (hx : x.length = N0 * N1 * N2) :
    ofView3 (⟨[N0, N1, N2], x⟩ : View K) = some x := by
  unfold ofView3
  simp only [View.extent, List.getD_cons_zero, List.getD_cons_succ]
  have e : [N0, N1, N2].prod = N0 * N1 * N2 := by simp [mul_assoc]
  rw [e]
  have hw : Wr (N0 * N1 * N2) (loop N0 (fun i => loop N1 (fun j => loop N2 (fun k y =>
      ((View.mk [N0, N1, N2] x).get [i, j, k]).bind (fun a => wr y ((i * N1 + j) * N2 + k) a)))))
      (fun p => ∃ i < N0, ∃ j < N1, ∃ k < N2, p = (i * N1 + j) * N2 + k) (fun p => (x[p]?).getD 0) := by
    refine Writes.loop (fun i hi => Writes.loop (fun j hj => Writes.loop (fun k hk => ?_)))
    have hl : (i * N1 + j) * N2 + k < x.length := hx ▸ flat3_lt hi hj hk
    rw [get_mk (flat_three hi hj hk), List.getElem?_eq_getElem hl]
    exact Wr.wr (flat3_lt hi hj hk) (by simp [hl])
  exact fill_all hx hw (fun p hp => by
    obtain ⟨i, j, k, hi, hj, hk, rfl⟩ := flat3_decomp hp; exact ⟨i, hi, j, hj, k, hk, rfl⟩)

end Verif.Kokkos
