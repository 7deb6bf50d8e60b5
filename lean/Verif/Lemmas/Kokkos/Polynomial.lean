import Verif.Model.Kokkos.Polynomial
import Verif.Lemmas.Kokkos.PairBuild
import Verif.Lemmas.PolyReach

/-! # Facts about `MultivariatePolynomialKokkos` -/

namespace Verif.Kokkos
open Verif.Par Verif.Par.Prog Verif.Poly

/-! ## Sizes of the nodes -/

section sizes
variable {srt : List (List (List ℕ)) → List (List (List ℕ))} {w : ℕ}

theorem popLoop_size {fuel : ℕ} {node : List ℕ} {st st' : List (List ℕ) × ℕ} (h : popLoop srt fuel node st = some st')
    (hn : node.length ≤ w) (hS : ∀ y ∈ st.1, y.length ≤ w) : ∀ y ∈ st'.1, y.length ≤ w := by
  induction fuel generalizing node st with
  | zero => cases h
  | succ fuel ih =>
    obtain ⟨S, aux⟩ := st
    unfold popLoop at h
    cases hf : findParents srt node S with
    | some f => rw [hf] at h; simp only [Option.some.injEq] at h; rw [← h]; exact hS
    | none =>
      rw [hf] at h
      simp only at h
      by_cases hne : node = []
      · rw [if_pos hne] at h; cases h
      · rw [if_neg hne] at h
        have hl : node.dropLast.length ≤ w := by rw [List.length_dropLast]; omega
        refine ih h hl (fun y hy => ?_)
        rcases mem_setInsert.mp hy with rfl | hy
        · exact hl
        · exact hS y hy

theorem auxLoop_size {fuel : ℕ} {next : Option (List ℕ)} {st st' : List (List ℕ) × ℕ} (h : auxLoop srt fuel next st = some st')
    (hn : ∀ y, next = some y → y.length ≤ w) (hS : ∀ y ∈ st.1, y.length ≤ w) : ∀ y ∈ st'.1, y.length ≤ w := by
  induction fuel generalizing next st with
  | zero =>
    cases next with
    | none => unfold auxLoop at h; rw [← Option.some.inj h]; exact hS
    | some y => cases h
  | succ fuel ih =>
    cases next with
    | none => unfold auxLoop at h; rw [← Option.some.inj h]; exact hS
    | some node =>
      unfold auxLoop at h
      by_cases h1 : node.length = 1
      · rw [if_pos h1] at h
        exact ih h (fun y hy => hS y (List.mem_of_find?_eq_some hy)) hS
      · rw [if_neg h1] at h
        cases hp : popLoop srt (node.length + 1) node st with
        | none => rw [hp] at h; cases h
        | some st1 =>
          rw [hp] at h
          have hS1 := popLoop_size hp (hn node rfl) hS
          exact ih h (fun y hy => hS1 y (List.mem_of_find?_eq_some hy)) hS1

theorem mk?_size {K : Type} [CommRing K] {nv : ℕ} {coeffs : List K} {monos : List (List ℕ)} {P : Poly K}
    (h : Poly.mk? srt nv coeffs monos = some P) (hm : ∀ m ∈ monos, m.length ≤ w) (hv : 0 < nv → 1 ≤ w) : ∀ y ∈ P.nodes, y.length ≤ w := by
  unfold Poly.mk? at h
  simp only [Option.bind_eq_bind] at h
  obtain ⟨map, h1, h⟩ := Option.bind_eq_some_iff.mp h
  obtain ⟨st, h2, h⟩ := Option.bind_eq_some_iff.mp h
  obtain ⟨es, -, h⟩ := Option.bind_eq_some_iff.mp h
  obtain ⟨nc, -, h⟩ := Option.bind_eq_some_iff.mp h
  rw [← Option.some.inj h]
  have hk : ∀ y ∈ map.map Prod.fst, y ∈ monos := by
    refine loop_pres (P := fun m : List (List ℕ × K) => ∀ y ∈ m.map Prod.fst, y ∈ monos) h1 (by simp) (fun i _ t t' ht e => ?_)
    simp only [Option.bind_eq_bind] at e
    obtain ⟨k, e1, e⟩ := Option.bind_eq_some_iff.mp e
    obtain ⟨c, -, e⟩ := Option.bind_eq_some_iff.mp e
    rw [← Option.some.inj e]
    intro y hy
    rcases mem_keys_mapInsert.mp hy with rfl | hy
    · exact List.mem_of_getElem? e1
    · exact ht y hy
  have h0 : ∀ y ∈ nodeSet0 nv (map.map Prod.fst), y.length ≤ w := by
    intro y hy
    rw [(nodeSet0_spec nv (map.map Prod.fst)).2] at hy
    rcases hy with hy | hy
    · obtain ⟨v, hv1, rfl⟩ := hy
      exact hv (by omega)
    · exact hm y (hk y hy)
  exact auxLoop_size h2 (fun y hy => h0 y (List.mem_of_mem_head? (Option.mem_def.mpr hy))) h0

end sizes

/-! ## Tables -/

theorem width_spec (monos : List (List ℕ)) : ∀ m ∈ monos, m.length ≤ monos.foldl (fun w m => if m.length > w then m.length else w) 0 := by
  have key : ∀ (l : List (List ℕ)) (w : ℕ), w ≤ l.foldl (fun w m => if m.length > w then m.length else w) w ∧
      ∀ m ∈ l, m.length ≤ l.foldl (fun w m => if m.length > w then m.length else w) w := by
    intro l
    induction l with
    | nil => intro w; simp
    | cons a l ih =>
      intro w
      rw [List.foldl_cons]
      obtain ⟨h1, h2⟩ := ih (if a.length > w then a.length else w)
      have h3 : w ≤ (if a.length > w then a.length else w) ∧ a.length ≤ (if a.length > w then a.length else w) := by split <;> omega
      refine ⟨h3.1.trans h1, fun m hm => ?_⟩
      rcases List.mem_cons.mp hm with rfl | hm
      · exact h3.2.trans h1
      · exact h2 m hm
  exact (key monos 0).2

/-- Contents of a table of rows, padded with `pad`. -/
structure Rows (v : View ℤ) (rows : List (List ℕ)) (width : ℕ) (pad : ℤ) : Prop where
  ok : v.Ok
  ext : v.ext = [rows.length, width]
  get : ∀ i < rows.length, ∀ j < width, v.get [i, j] = some (match (rows[i]?.getD [])[j]? with | some a => (a : ℤ) | none => pad)

theorem rowsView_spec (shared : Bool) {rows : List (List ℕ)} {width : ℕ} (h : ∀ m ∈ rows, m.length ≤ width) :
    ∃ v, rowsView shared rows width = some v ∧ Rows v rows width (if shared then -1 else 0) := by
  unfold rowsView
  have h0 : mirrorI shared (View.new [rows.length, width] (-1)) = View.new [rows.length, width] (if shared then -1 else 0) := by
    cases shared <;> rfl
  rw [h0]
  generalize (if shared then (-1 : ℤ) else 0) = pad
  have key := loop_inv (n := rows.length) (body := fun i (v : View ℤ) => do
      let m ← rows[i]?
      loop m.length (fun j v => do
        let a ← m[j]?
        v.set [i, j] (a : ℤ)) v)
    (P := fun n (v : View ℤ) => v.Ok ∧ v.ext = [rows.length, width] ∧ ∀ i < rows.length, ∀ j < width,
      v.get [i, j] = some (if i < n then (match (rows[i]?.getD [])[j]? with | some a => (a : ℤ) | none => pad) else pad))
    (s := View.new [rows.length, width] pad) ?_ ?_
  · obtain ⟨v, h1, h2, h3, h4⟩ := key
    refine ⟨v, h1, h2, h3, fun i hi j hj => ?_⟩
    rw [h4 i hi j hj, if_pos hi]
  · refine ⟨View.new_ok _ _, rfl, fun i hi j hj => ?_⟩
    rw [View.get_new (flat_two hi hj), if_neg (by omega)]
  · rintro n hn v ⟨h1, h2, h3⟩
    have hg : rows[n]? = some rows[n] := List.getElem?_eq_getElem hn
    have hw := h _ (List.getElem_mem hn)
    rw [hg]
    simp only [Option.bind_eq_bind, Option.bind_some]
    obtain ⟨v', k1, k2, k3, k4⟩ := loop_inv (n := rows[n].length) (body := fun j (v : View ℤ) => (rows[n][j]?).bind (fun a => v.set [n, j] (a : ℤ)))
      (P := fun k (v : View ℤ) => v.Ok ∧ v.ext = [rows.length, width] ∧ ∀ i < rows.length, ∀ j < width,
        v.get [i, j] = some (if i < n ∨ (i = n ∧ j < k) then (match (rows[i]?.getD [])[j]? with | some a => (a : ℤ) | none => pad) else pad))
      (s := v) ⟨h1, h2, fun i hi j hj => by rw [h3 i hi j hj]; simp⟩ (by
        rintro k hk v ⟨g1, g2, g3⟩
        have hk' : rows[n][k]? = some rows[n][k] := List.getElem?_eq_getElem hk
        rw [hk', Option.bind_some]
        obtain ⟨u, u1, u2, u3, u4, u5⟩ := View.set_spec g1 (is := [n, k]) (p := n * width + k) (by rw [g2]; exact flat_two hn (by omega))
          ((rows[n][k] : ℕ) : ℤ)
        refine ⟨u, u1, u3, u2.trans g2, fun i hi j hj => ?_⟩
        by_cases e : i = n ∧ j = k
        · obtain ⟨rfl, rfl⟩ := e
          rw [u4, if_pos (Or.inr ⟨rfl, by omega⟩), hg]
          simp only [Option.getD_some, hk']
        · rw [u5 _ (by simpa using e), g3 i hi j hj]
          congr 1
          have : (i < n ∨ (i = n ∧ j < k)) ↔ (i < n ∨ (i = n ∧ j < k + 1)) := by omega
          simp only [this])
    refine ⟨v', k1, k2, k3, fun i hi j hj => ?_⟩
    rw [k4 i hi j hj]
    congr 1
    by_cases h1 : i < n
    · rw [if_pos (Or.inl h1), if_pos (by omega)]
    · by_cases h2 : i = n
      · subst h2
        rw [if_pos (show i < i + 1 by omega)]
        by_cases h3 : j < rows[i].length
        · rw [if_pos (Or.inr ⟨rfl, h3⟩)]
        · rw [if_neg (by omega), hg, Option.getD_some, List.getElem?_eq_none (by omega)]
      · rw [if_neg (by omega), if_neg (by omega)]

theorem edgesView_spec (edges : List (ℕ × ℕ)) : ∃ v, edgesView edges = some v ∧ v.extent 0 = edges.length ∧
    ∀ i < edges.length, ∃ e, edges[i]? = some e ∧ v.get [i, 0] = some e.1 ∧ v.get [i, 1] = some e.2 := by
  unfold edgesView
  obtain ⟨v, h1, h2, h3, h4⟩ := loop_inv (n := edges.length) (body := fun i (h : View ℕ) => do
      let e ← edges[i]?
      let h ← h.set [i, 0] e.1
      h.set [i, 1] e.2)
    (P := fun n (v : View ℕ) => v.Ok ∧ v.ext = [edges.length, 2] ∧
      ∀ i < n, ∃ e, edges[i]? = some e ∧ v.get [i, 0] = some e.1 ∧ v.get [i, 1] = some e.2)
    (s := View.new [edges.length, 2] 0) ⟨View.new_ok _ _, rfl, by simp⟩ (by
      rintro n hn v ⟨h1, h2, h3⟩
      have he : edges[n]? = some edges[n] := List.getElem?_eq_getElem hn
      rw [he]
      obtain ⟨u, u1, u2, u3, u4, u5⟩ := View.set_spec h1 (is := [n, 0]) (p := n * 2 + 0) (by rw [h2]; exact flat_two hn (by omega)) edges[n].1
      obtain ⟨t, t1, t2, t3, t4, t5⟩ := View.set_spec u3 (is := [n, 1]) (p := n * 2 + 1)
        (by rw [u2, h2]; exact flat_two hn (by omega)) edges[n].2
      refine ⟨t, ?_, t3, by rw [t2, u2, h2], fun i hi => ?_⟩
      · simp only [Option.bind_eq_bind, Option.bind_some]
        rw [u1, Option.bind_some, t1]
      · by_cases e : i = n
        · subst e
          exact ⟨_, he, by rw [t5 _ (by simp), u4], t4⟩
        · obtain ⟨a, a1, a2, a3⟩ := h3 i (by omega)
          exact ⟨a, a1, by rw [t5 _ (by simp), u5 _ (by simp [e]), a2], by rw [t5 _ (by simp [e]), u5 _ (by simp), a3]⟩)
  exact ⟨v, h1, by rw [View.extent, h3]; rfl, h4⟩

/-! ## Copies -/

section copies
variable {K : Type} [Field K]

theorem copyK_raceFree (n : ℕ) (x : List K) (m : ℕ) : RaceFree (copyK n x (fun _ => [m])) := by
  refine ⟨⟨fun i => {((), i)}, ∅, ∅, fun _ _ => Set.subset_univ _, Set.empty_subset _, Set.empty_subset _, fun i _ j _ hne => ?_,
    fun _ _ => Set.disjoint_empty _, fun _ _ => Set.disjoint_empty _, Set.disjoint_empty _, fun i _ => ?_⟩, fun _ => trivial⟩
  · simpa using hne
  · refine Confined.opt (fun a _ => Confined.opt (fun p hp => ?_))
    obtain ⟨-, rfl⟩ := flat_one_some hp
    exact ⟨rfl, trivial⟩

/-- In every schedule the copy is the sequential one, also where it is undefined. -/
theorem copyTo_eq (L : Launcher K) (n : ℕ) (x v : List K) : copyTo L n x v = dcopy n x v := by
  have ho := outcome_unique (copyK_raceFree n x v.length) (L.legal _ (fun _ : Unit => v))
  have key : ∀ k, (loopV k (fun i m => run (opt x[i]? (fun a => put (fun _ : Unit => [v.length]) () [i] a)) m) (fun _ => v)).map (fun q => q.2 ())
      = dcopy k x v ∧ ∀ b, dcopy k x v = some b → b.length = v.length := by
    intro k
    induction k with
    | zero => exact ⟨rfl, fun b hb => by rw [← Option.some.inj hb]⟩
    | succ k ih =>
      obtain ⟨i1, i2⟩ := ih
      unfold dcopy at i1 i2 ⊢
      rw [loopV_succ, loop_succ, ← i1]
      cases hl : loopV k (fun i m => run (opt x[i]? (fun a => put (fun _ : Unit => [v.length]) () [i] a)) m) (fun _ => v) with
      | none => exact ⟨rfl, fun b hb => by cases hb⟩
      | some q =>
        rw [hl] at i1
        have hq : (q.2 ()).length = v.length := i2 _ i1.symm
        simp only [Option.bind_some, Option.map_some, Option.bind_eq_bind]
        cases hx : x[k]? with
        | none => exact ⟨rfl, fun b hb => by cases hb⟩
        | some a =>
          simp only [Option.bind_some, opt]
          by_cases hk : k < v.length
          · have hk' : k < (q.2 ()).length := by rw [hq]; exact hk
            have e : run (put (fun _ : Unit => [v.length]) () [k] a) q.2 = some ([], Function.update q.2 () ((q.2 ()).set k a)) := by
              unfold put
              rw [flat_one hk]
              simp only [opt, run]
              unfold putAt modAt
              rw [List.getElem?_eq_getElem hk']
              rfl
            rw [e, wr_eq _ hk']
            refine ⟨by simp, fun b hb => ?_⟩
            rw [← Option.some.inj hb, List.length_set, hq]
          · have e : run (put (fun _ : Unit => [v.length]) () [k] a) q.2 = none := by
              unfold put
              have : flat [v.length] [k] 0 = none := by simp [flat, hk]
              rw [this]
              rfl
            have e' : wr (q.2 ()) k a = none := by unfold wr; rw [if_neg (by omega)]
            rw [e, e']
            exact ⟨rfl, fun b hb => by cases hb⟩
  unfold copyTo Launcher.launch1 Launcher.launch
  rw [ho, ← (key n).1]
  unfold copyK parFor
  simp only [run]
  cases loopV n (fun i m => run (opt x[i]? (fun a => put (fun _ : Unit => [v.length]) () [i] a)) m) (fun _ => v) with
  | none => rfl
  | some q => rfl

end copies

/-! ## The evaluators that use the graph -/

section graph
variable {K : Type} [Field K]

/-- The device object holds the graph and the buffers of the host object. -/
structure Rel (q : Poly K) (P : PolyK K) : Prop where
  shared : P.shared = true
  nv : P.numVariables = q.numVariables
  nc : P.nodeCoefficients = q.nodeCoefficients
  len : P.edges.extent 0 = q.edges.length
  edge : ∀ i < q.edges.length, ∃ e, q.edges[i]? = some e ∧ P.edges.get [i, 0] = some e.1 ∧ P.edges.get [i, 1] = some e.2
  vals : P.nodeValues = q.nodeValues
  adjs : P.nodeAdjoints = q.nodeAdjoints

theorem Rel.forward {q : Poly K} {P : PolyK K} (h : Rel q P) (v : List K) : P.forwardPass v = Poly.forwardPass q.numVariables q.edges v := by
  unfold PolyK.forwardPass Poly.forwardPass
  rw [h.len]
  refine loop_congr (fun i hi s => ?_) _
  obtain ⟨e, e1, e2, e3⟩ := h.edge i hi
  rw [if_pos h.shared, e1, e2, e3, h.nv]
  rfl

theorem Rel.backward {q : Poly K} {P : PolyK K} (h : Rel q P) (v w : List K) :
    P.backwardPass v w = Poly.backwardPass q.numVariables q.edges v w := by
  unfold PolyK.backwardPass Poly.backwardPass
  rw [h.len]
  refine loop_congr (fun i hi s => ?_) _
  obtain ⟨e, e1, e2, e3⟩ := h.edge (q.edges.length - 1 - i) (by omega)
  rw [if_pos h.shared]
  simp only [Option.bind_eq_bind]
  rw [e1, e2, e3, h.nv]
  rfl

theorem Rel.evaluate {q : Poly K} {P : PolyK K} (h : Rel q P) (V : Env K) (x : List K) :
    P.evaluate V x = (q.evaluate x).map (fun r => (r.1, { P with nodeValues := r.2.nodeValues })) := by
  unfold PolyK.evaluate Poly.evaluate
  simp only [Option.bind_eq_bind]
  rw [copyTo_eq, h.nv, h.vals, h.nc]
  show (initForward q.numVariables x q.nodeValues).bind _ = ((initForward q.numVariables x q.nodeValues).bind _).map _
  cases initForward q.numVariables x q.nodeValues with
  | none => rfl
  | some v =>
    simp only [Option.bind_some]
    rw [h.forward]
    cases Poly.forwardPass q.numVariables q.edges v with
    | none => rfl
    | some v =>
      simp only [Option.bind_some]
      cases ddot q.nodeCoefficients.length q.nodeCoefficients v with
      | none => rfl
      | some f => rfl

theorem Rel.evaluateGradient {q : Poly K} {P : PolyK K} (h : Rel q P) (V : Env K) (x : List K) {g : List K} (hg : g.length = q.numVariables) :
    P.evaluateGradient V x g
      = (q.evaluateGradient x).map (fun r => (r.1, r.2.1, { P with nodeValues := r.2.2.nodeValues, nodeAdjoints := r.2.2.nodeAdjoints })) := by
  unfold PolyK.evaluateGradient Poly.evaluateGradient
  simp only [Option.bind_eq_bind]
  rw [copyTo_eq, h.nv, h.vals, h.nc, h.adjs]
  show (initForward q.numVariables x q.nodeValues).bind _ = ((initForward q.numVariables x q.nodeValues).bind _).map _
  cases initForward q.numVariables x q.nodeValues with
  | none => rfl
  | some v =>
    simp only [Option.bind_some]
    rw [h.forward]
    cases Poly.forwardPass q.numVariables q.edges v with
    | none => rfl
    | some v =>
      simp only [Option.bind_some]
      cases ddot q.nodeCoefficients.length q.nodeCoefficients v with
      | none => rfl
      | some f =>
        simp only [Option.bind_some]
        rw [copyTo_eq]
        cases dcopy q.nodeCoefficients.length q.nodeCoefficients q.nodeAdjoints with
        | none => rfl
        | some w =>
          simp only [Option.bind_some]
          rw [h.backward]
          cases Poly.backwardPass q.numVariables q.edges v w with
          | none => rfl
          | some w =>
            simp only [Option.bind_some]
            rw [copyTo_eq, hg]
            show (extractGradient q.numVariables w).bind _ = ((extractGradient q.numVariables w).bind _).map _
            cases extractGradient q.numVariables w with
            | none => rfl
            | some g => rfl

theorem wr_len {b b' : List K} {i : ℕ} {v : K} (h : wr b i v = some b') : b'.length = b.length := by
  unfold wr at h
  split at h
  · rw [← Option.some.inj h, List.length_set]
  · cases h

theorem dcopy_length {n : ℕ} {x b b' : List K} (h : dcopy n x b = some b') : b'.length = b.length := by
  refine loop_pres h (fun t => t.length = b.length) rfl (fun i _ t t' ht e => ?_)
  simp only [Option.bind_eq_bind] at e
  obtain ⟨a, -, e⟩ := Option.bind_eq_some_iff.mp e
  rw [wr_len e, ht]

theorem forwardPassK_length {P : PolyK K} {v v' : List K} (h : P.forwardPass v = some v') : v'.length = v.length := by
  refine loop_pres h (fun t => t.length = v.length) rfl (fun i _ t t' ht e => ?_)
  split at e
  · simp only [Option.bind_eq_bind] at e
    obtain ⟨_, -, e⟩ := Option.bind_eq_some_iff.mp e
    obtain ⟨_, -, e⟩ := Option.bind_eq_some_iff.mp e
    obtain ⟨_, -, e⟩ := Option.bind_eq_some_iff.mp e
    obtain ⟨_, -, e⟩ := Option.bind_eq_some_iff.mp e
    rw [wr_len e, ht]
  · cases e

theorem ad_len {b b' : List K} {i : ℕ} {v : K} (h : ad b i v = some b') : b'.length = b.length := by
  unfold ad md at h
  split at h
  · cases h
  · rw [← Option.some.inj h, List.length_set]

theorem backwardPassK_length {P : PolyK K} {v w w' : List K} (h : P.backwardPass v w = some w') : w'.length = w.length := by
  refine loop_pres h (fun t => t.length = w.length) rfl (fun i _ t t' ht e => ?_)
  split at e
  · simp only [Option.bind_eq_bind] at e
    obtain ⟨_, -, e⟩ := Option.bind_eq_some_iff.mp e
    obtain ⟨_, -, e⟩ := Option.bind_eq_some_iff.mp e
    obtain ⟨_, -, e⟩ := Option.bind_eq_some_iff.mp e
    obtain ⟨_, -, e⟩ := Option.bind_eq_some_iff.mp e
    obtain ⟨_, e1, e⟩ := Option.bind_eq_some_iff.mp e
    obtain ⟨_, -, e⟩ := Option.bind_eq_some_iff.mp e
    obtain ⟨_, -, e⟩ := Option.bind_eq_some_iff.mp e
    rw [ad_len e, ad_len e1, ht]
  · cases e

/-- Calls change only the two buffers, and keep their lengths. -/
theorem reachK_like {P0 P : PolyK K} (h : ReachK P0 P) : ∃ v w, P = { P0 with nodeValues := v, nodeAdjoints := w } ∧
    v.length = P0.nodeValues.length ∧ w.length = P0.nodeAdjoints.length := by
  induction h with
  | init => exact ⟨_, _, rfl, rfl, rfl⟩
  | evaluate _ e ih =>
    obtain ⟨v, w, rfl, hv, hw⟩ := ih
    unfold PolyK.evaluate at e
    simp only [Option.bind_eq_bind] at e
    obtain ⟨v1, e1, e⟩ := Option.bind_eq_some_iff.mp e
    obtain ⟨v2, e2, e⟩ := Option.bind_eq_some_iff.mp e
    obtain ⟨f, -, e⟩ := Option.bind_eq_some_iff.mp e
    rw [← (Prod.mk.inj (Option.some.inj e)).2]
    rw [copyTo_eq] at e1
    exact ⟨v2, w, rfl, by rw [forwardPassK_length e2, dcopy_length e1]; exact hv, hw⟩
  | evaluateGradient _ e ih =>
    obtain ⟨v, w, rfl, hv, hw⟩ := ih
    unfold PolyK.evaluateGradient at e
    simp only [Option.bind_eq_bind] at e
    obtain ⟨v1, e1, e⟩ := Option.bind_eq_some_iff.mp e
    obtain ⟨v2, e2, e⟩ := Option.bind_eq_some_iff.mp e
    obtain ⟨f, -, e⟩ := Option.bind_eq_some_iff.mp e
    obtain ⟨w1, e3, e⟩ := Option.bind_eq_some_iff.mp e
    obtain ⟨w2, e4, e⟩ := Option.bind_eq_some_iff.mp e
    obtain ⟨g, -, e⟩ := Option.bind_eq_some_iff.mp e
    rw [← (Prod.mk.inj (Prod.mk.inj (Option.some.inj e)).2).2]
    rw [copyTo_eq] at e1 e3
    exact ⟨v2, w2, rfl, by rw [forwardPassK_length e2, dcopy_length e1]; exact hv, by rw [backwardPassK_length e4, dcopy_length e3]; exact hw⟩

/-- The constructor. -/
theorem mkK_spec (shared : Bool) {srt : List (List (List ℕ)) → List (List (List ℕ))} {nv : ℕ} {coeffs : List K} {monos : List (List ℕ)} {q : Poly K}
    (hq : Poly.mk? srt nv coeffs monos = some q) (hnv : q.numVariables = nv) (hne : ∀ m ∈ monos, m ≠ []) (h0 : monos = [] → nv = 0) :
    ∃ P w, PolyK.mk? srt shared nv coeffs monos = some P ∧ (shared = true → Rel q P) ∧ P.shared = shared ∧ P.coefficients = coeffs ∧
      P.edges.extent 0 = q.edges.length ∧ Rows P.monomials monos w (if shared then -1 else 0) ∧
      ∀ m ∈ monos, m.length ≤ w := by
  have hw := width_spec monos
  obtain ⟨mv, m1, m2⟩ := rowsView_spec shared hw
  obtain ⟨nvw, n1, -⟩ := rowsView_spec shared (rows := q.nodes) (mk?_size hq hw (fun hv => by
    cases monos with
    | nil => have := h0 rfl; omega
    | cons m l => exact (List.length_pos_iff.mpr (hne m (by simp))).trans_le (hw m (by simp))))
  obtain ⟨ev, e1, e2, e3⟩ := edgesView_spec q.edges
  have hmk : PolyK.mk? srt shared nv coeffs monos = some
      { shared := shared, numVariables := nv, coefficients := coeffs, monomials := mv, numAux := q.numAux, nodes := nvw, edges := ev,
        nodeCoefficients := q.nodeCoefficients, nodeValues := q.nodeValues, nodeAdjoints := q.nodeAdjoints } := by
    unfold PolyK.mk?
    simp only [Option.bind_eq_bind]
    rw [m1, Option.bind_some, hq, Option.bind_some, n1, Option.bind_some, e1, Option.bind_some]
  exact ⟨_, _, hmk, fun h => ⟨h, hnv.symm, rfl, e2, e3, rfl, rfl⟩, rfl, rfl, e2, m2, hw⟩

end graph

end Verif.Kokkos
