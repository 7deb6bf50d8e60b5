import Verif.Lemmas.Kokkos.LoadPoly
import Verif.Lemmas.MACE.LoadSpec
import Verif.Lemmas.Kokkos.Percep

/-! # Coupling tables, linear maps and readout of the Kokkos evaluator, as loaded -/

namespace Verif.Kokkos
open Verif.MACE Verif.Spec

section tables

/-- Three columns. -/
def cols (c : List (ℕ × ℕ × ℕ)) : List ℕ × List ℕ × List ℕ := (c.map (fun x => x.2.1), c.map (fun x => x.2.2), c.map (fun x => x.1))

theorem loop_cols {n : ℕ} {B : ℕ → List ℕ × List ℕ × List ℕ → Option (List ℕ × List ℕ × List ℕ)} {X : ℕ → List (ℕ × ℕ × ℕ)}
    (h : ∀ i < n, ∀ c, B i (cols c) = some (cols (c ++ X i))) (c : List (ℕ × ℕ × ℕ)) :
    Verif.loop n B (cols c) = some (cols (c ++ (List.range n).flatMap X)) := by
  induction n with
  | zero => simp
  | succ n ih =>
    rw [loop_succ, ih (fun i hi => h i (by omega)), Option.bind_some, h n (by omega), List.range_succ, List.flatMap_append,
      List.append_assoc]
    simp

variable {f : File}

theorem phi1Tables_spec (hf : FileOk f) : phi1Tables f.phil.length f.phil1 f.phil2 = some (cols f.couplings) := by
  have e0 : (([], [], []) : List ℕ × List ℕ × List ℕ) = cols [] := rfl
  unfold phi1Tables
  rw [e0, loop_cols (X := fun le => (List.range (2 * nthN f.phil1 le + 1)).flatMap (fun m1 => (List.range (2 * nthN f.phil2 le + 1)).map
    (fun m2 => (le, nthN f.phil1 le * nthN f.phil1 le + m1, nthN f.phil2 le * nthN f.phil2 le + m2))))]
  · rfl
  · intro le hle c
    rw [some_nthN (l := f.phil1) (by have := hf.phil1.1; omega), some_nthN (l := f.phil2) (by have := hf.phil2.1; omega)]
    simp only [Option.bind_eq_bind, Option.bind_some]
    have e : ∀ l : ℕ, l * (l + 2) + 1 - l * l = 2 * l + 1 := fun l => by
      have : l * (l + 2) = l * l + 2 * l := by ring
      omega
    rw [e, e]
    refine loop_cols (fun m1 _ c => ?_) c
    rw [loop_cols (X := fun m2 => [(le, nthN f.phil1 le * nthN f.phil1 le + m1, nthN f.phil2 le * nthN f.phil2 le + m2)])]
    · rw [← List.map_eq_flatMap]
    · intro m2 _ c
      simp [cols]

theorem blockOf_spec (hf : FileOk f) (l : ℕ) : blockOf f.phil l = some ((netOf f).base l, (netOf f).nE l) := by
  have := loop_eq (n := f.phil.length) (body := fun p (q : ℕ × ℕ) => (f.phil[p]?).map (fun ll =>
      (if ll < l then q.1 + (2 * ll + 1) else q.1, if ll = l then q.2 + 1 else q.2)))
    (fun j => (∑ l' ∈ Finset.range l, (2 * l' + 1) * (f.phil.take j).count l', (f.phil.take j).count l)) ?_
  · unfold blockOf
    simp only [List.take_zero, List.count_nil, mul_zero, Finset.sum_const_zero, List.take_length] at this
    exact this
  · intro j hj
    rw [List.getElem?_eq_getElem hj, Option.map_some, List.take_succ_eq_append_getElem hj]
    simp only [List.count_append, Option.some.injEq, Prod.mk.injEq, mul_add, Finset.sum_add_distrib]
    refine ⟨?_, ?_⟩
    · have : ∑ l' ∈ Finset.range l, (2 * l' + 1) * [f.phil[j]].count l' = if f.phil[j] < l then 2 * f.phil[j] + 1 else 0 := by
        rw [Finset.sum_congr rfl (g := fun l' => if l' = f.phil[j] then 2 * f.phil[j] + 1 else 0) (fun l' _ => by
          by_cases e : l' = f.phil[j]
          · subst e; simp
          · have : ¬ f.phil[j] = l' := fun h => e h.symm
            simp [e, this]), Finset.sum_ite_eq']
        simp
      rw [this]
      split_ifs <;> rfl
    · by_cases e : f.phil[j] = l <;> simp [e]

theorem phi1Counts_spec (hf : FileOk f) : phi1Counts f.phil f.phil1 f.phil2 = some ((netOf f).nOut, (netOf f).nQ) := by
  have h1 : Verif.loop f.phil.length (fun i n => (f.phil[i]?).map (fun l => n + (2 * l + 1))) 0 = some (netOf f).nOut := by
    rw [← nOut_eq hf]
    have := loop_eq (n := f.phil.length) (body := fun i n => (f.phil[i]?).map (fun l => n + (2 * l + 1)))
      (fun j => ((f.phil.take j).map (fun l => 2 * l + 1)).sum) ?_
    · simpa using this
    · intro j hj
      rw [List.getElem?_eq_getElem hj, Option.map_some, List.take_succ_eq_append_getElem hj, List.map_append, List.sum_append]
      simp only [List.map_cons, List.map_nil, List.sum_cons, List.sum_nil, add_zero]
  unfold phi1Counts
  rw [h1]
  refine (bind_of_some (numLelm_eq hf) _).trans ?_
  rfl

end tables

section linear
variable {K : Type} [Field K]

theorem A1view_spec {junk : ℕ → ℕ → K} {C l nE : ℕ} {phil : List ℕ} {w : List (List K)} {x : ℕ → ℕ → K} (hE : phil.count l = nE)
    (h : ∀ i < nE * C, ∀ j < C, (w[l]?).bind (fun t => t[i * C + j]?) = some (x i j)) :
    ∃ q, A1view junk C phil w l = some q ∧ (∀ i < nE * C, ∀ j < C, q.1.get [i, j] = some (x i j)) ∧
      ∀ i < nE * C, ∀ j < C, q.2.get [j, i] = some (x i j) := by
  have hc : Verif.loop phil.length (fun i n => (phil[i]?).map (fun l' => if l' = l then n + 1 else n)) 0 = some nE := by
    rw [← hE]
    have := loop_eq (n := phil.length) (body := fun i n => (phil[i]?).map (fun l' => if l' = l then n + 1 else n))
      (fun j => (phil.take j).count l) ?_
    · simpa using this
    · intro j hj
      rw [List.getElem?_eq_getElem hj, Option.map_some, List.take_succ_eq_append_getElem hj, List.count_append]
      by_cases e : phil[j] = l <;> simp [e]
  have hinner : ∀ i < nE * C, ∀ q : View K × View K, (q.1.ext = [nE * C, C] ∧ q.1.Ok ∧ q.2.ext = [C, nE * C] ∧ q.2.Ok) →
      ∃ q', Verif.loop C (fun j (q : View K × View K) => do
        let x ← (w[l]?).bind (fun t => t[i * C + j]?)
        let v ← q.1.set [i, j] x
        let y ← (w[l]?).bind (fun t => t[i * C + j]?)
        let vt ← q.2.set [j, i] y
        pure (v, vt)) q = some q' ∧ (q'.1.ext = [nE * C, C] ∧ q'.1.Ok ∧ q'.2.ext = [C, nE * C] ∧ q'.2.Ok) ∧
        (∀ j < C, q'.1.get [i, j] = some (x i j) ∧ q'.2.get [j, i] = some (x i j)) ∧
        ∀ i' ≠ i, ∀ j, q'.1.get [i', j] = q.1.get [i', j] ∧ q'.2.get [j, i'] = q.2.get [j, i'] := by
    intro i hi q hq
    obtain ⟨q', k1, k2, k3, k4⟩ := loop_inv (n := C) (body := fun j (q : View K × View K) => do
        let x ← (w[l]?).bind (fun t => t[i * C + j]?)
        let v ← q.1.set [i, j] x
        let y ← (w[l]?).bind (fun t => t[i * C + j]?)
        let vt ← q.2.set [j, i] y
        pure (v, vt)) (s := q) (fun m q' => (q'.1.ext = [nE * C, C] ∧ q'.1.Ok ∧ q'.2.ext = [C, nE * C] ∧ q'.2.Ok) ∧
        (∀ j < m, q'.1.get [i, j] = some (x i j) ∧ q'.2.get [j, i] = some (x i j)) ∧
        ∀ i' ≠ i, ∀ j, q'.1.get [i', j] = q.1.get [i', j] ∧ q'.2.get [j, i'] = q.2.get [j, i'])
      ⟨hq, by simp, fun _ _ _ => ⟨rfl, rfl⟩⟩ (by
        rintro j hj q' ⟨⟨g1, g2, g3, g4⟩, g5, g6⟩
        obtain ⟨v, l1, l2, l3, l4, l5⟩ := View.set_spec g2 (is := [i, j]) (p := i * C + j) (by rw [g1]; exact flat_two hi hj) (x i j)
        obtain ⟨v', m1, m2, m3, m4, m5⟩ := View.set_spec g4 (is := [j, i]) (p := j * (nE * C) + i) (by rw [g3]; exact flat_two hj hi) (x i j)
        refine ⟨(v, v'), ?_, ⟨by rw [l2, g1], l3, by rw [m2, g3], m3⟩, fun j' hj' => ?_, fun i' hi' j' => ?_⟩
        · simp only [Option.bind_eq_bind]
          rw [h i hi j hj, Option.bind_some, l1, Option.bind_some, Option.bind_some, m1]
          rfl
        · by_cases e : j' = j
          · subst e; exact ⟨l4, m4⟩
          · rw [l5 _ (by simp [e]), m5 _ (by simp [e])]
            exact g5 j' (by omega)
        · rw [l5 _ (by simp [hi']), m5 _ (by simp [hi'])]
          exact g6 i' hi' j')
    exact ⟨q', k1, k2, k3, k4⟩
  obtain ⟨q, k1, -, k2⟩ := loop_inv (n := nE * C) (body := fun i => Verif.loop C (fun j (q : View K × View K) => do
        let x ← (w[l]?).bind (fun t => t[i * C + j]?)
        let v ← q.1.set [i, j] x
        let y ← (w[l]?).bind (fun t => t[i * C + j]?)
        let vt ← q.2.set [j, i] y
        pure (v, vt))) (s := (uninit (junk 0) [nE * C, C], uninit (junk 1) [C, nE * C]))
    (fun m q' => (q'.1.ext = [nE * C, C] ∧ q'.1.Ok ∧ q'.2.ext = [C, nE * C] ∧ q'.2.Ok) ∧
        (∀ i < m, ∀ j < C, q'.1.get [i, j] = some (x i j) ∧ q'.2.get [j, i] = some (x i j)))
    ⟨⟨rfl, uninit_ok _ _, rfl, uninit_ok _ _⟩, by simp⟩ (by
      rintro i hi q ⟨g1, g2⟩
      obtain ⟨q', l1, l2, l3, l4⟩ := hinner i hi q g1
      refine ⟨q', l1, l2, fun i' hi' j hj => ?_⟩
      by_cases e : i' = i
      · subst e; exact l3 j hj
      · rw [(l4 i' e j).1, (l4 i' e j).2]
        exact g2 i' (by omega) j hj)
  refine ⟨q, ?_, fun i hi j hj => (k2 i hi j hj).1, fun i hi j hj => (k2 i hi j hj).2⟩
  unfold A1view
  rw [hc]
  exact k1

theorem percep_mk {shape : List ℕ} {weights : List (List K)} {L : ℕ} {n : ℕ → ℕ} {W : ℕ → ℕ → ℕ → K} (scale : K) (hlen : shape.length = L + 1)
    (hshape : ∀ l ≤ L, shape[l]? = some (n l)) (hw : ∀ l < L, ∃ w, weights[l]? = some w ∧ ∀ i < n (l + 1), ∀ j < n l, w[i * n l + j]? = some (W l i j)) :
    ∃ s, Percep.mk? shape weights scale = some s ∧ PerOk s L n W ∧ s.scale = scale := by
  obtain ⟨ws, h1, h2, h3⟩ := pushLoop_spec (n := L) (f := fun l => do
    let m ← shape[l + 1]?
    let n ← shape[l]?
    let w ← (if l < weights.length then weights[l]? else none)
    Verif.loop m (fun i => Verif.loop n (fun j v => do
      let x ← w[i * n + j]?
      v.set [i, j] x)) (View.new [m, n] 0)) (Q := fun l v => v.ext = [n (l + 1), n l] ∧ ∀ i < n (l + 1), ∀ j < n l, v.get [i, j] = some (W l i j))
    (fun l hl => by
      obtain ⟨w, e1, e2⟩ := hw l hl
      obtain ⟨v, g1, g2, -, g3⟩ := fill2 (nA := n (l + 1)) (nB := n l) (val := fun i j => w[i * n l + j]?) (x := W l) e2
        (v := View.new [n (l + 1), n l] 0) rfl (View.new_ok _ _)
      refine ⟨v, ?_, g2, g3⟩
      rw [hshape (l + 1) (by omega), hshape l (by omega), if_pos (List.getElem?_eq_some_iff.mp e1).1, e1]
      exact g1) []
  refine ⟨{ shape := shape, w := fun l => ws.getD l ⟨[], []⟩, scale := scale }, ?_, ?_, rfl⟩
  · unfold Percep.mk?
    rw [less1, if_neg (by omega), show shape.length - 1 = L by omega]
    rw [List.nil_append] at h1
    simp only [Option.bind_eq_bind, Option.bind_some] at h1 ⊢
    rw [h1]
    rfl
  · have hv : ∀ l < L, ∃ v, ws.getD l ⟨[], []⟩ = v ∧ v.ext = [n (l + 1), n l] ∧ ∀ i < n (l + 1), ∀ j < n l, v.get [i, j] = some (W l i j) := by
      intro l hl
      obtain ⟨v, e1, e2, e3⟩ := h3 l hl
      exact ⟨v, by rw [List.getD_eq_getElem?_getD, e1]; rfl, e2, e3⟩
    refine ⟨hlen, hshape, fun l hl => ?_, fun l hl => ?_, fun l hl i hi j hj => ?_⟩
    · obtain ⟨v, e1, e2, e3⟩ := hv l hl
      show View.extent (ws.getD l _) 0 = _
      rw [e1, View.extent, e2]; rfl
    · obtain ⟨v, e1, e2, e3⟩ := hv l hl
      show View.extent (ws.getD l _) 1 = _
      rw [e1, View.extent, e2]; rfl
    · obtain ⟨v, e1, e2, e3⟩ := hv l hl
      show View.get (ws.getD l _) _ = _
      rw [e1]
      exact e3 i hi j hj

end linear

end Verif.Kokkos
