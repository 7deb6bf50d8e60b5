import Verif.Lemmas.Kokkos.PairBuild
import Verif.Base.Atomic

/-! # Results of the Kokkos pair style -/

namespace Verif.Kokkos.Pair
open Verif.Par Verif.Par.Prog Verif.Lammps Verif.MACE Verif.Spec

/-- A sum over the edges of the nodes is a sum over the edges. -/
theorem sum_off {nn : List ℕ} {n : ℕ} (h : n ≤ nn.length) (G : ℕ → ℝ) :
    ∑ ii ∈ Finset.range n, ∑ jj ∈ Finset.range (nthN nn ii), G (off nn ii + jj) = ∑ e ∈ Finset.range (off nn n), G e := by
  induction n with
  | zero => simp [off_zero]
  | succ n ih =>
    rw [Finset.sum_range_succ, ih (by omega), off_succ (get_nthN (by omega)), Finset.sum_range_add]

theorem data_eq2 {v : View ℝ} {n m : ℕ} {F : ℕ → ℕ → ℝ} (hv : v.Ok) (he : v.ext = [n, m])
    (h : ∀ i < n, ∀ j < m, v.get [i, j] = some (F i j)) : v.data = tab2 n m F := by
  rw [eq_tab2_iff]
  refine ⟨?_, fun i hi j hj => ?_⟩
  · unfold View.Ok at hv
    rw [hv, he]; simp
  · rw [← h i hi j hj]
    unfold View.get
    rw [he, flat_two hi hj, Option.bind_some]

/-- Additions to the three components of atom `j`. -/
def pull (j : ℕ) (x : ℕ → ℝ) : Unit × List ℕ → ℝ := fun c =>
  match c.2 with
  | [a, k] => if a = j then x k else 0
  | _ => 0

/-- The force components. -/
def Comps (M : ℕ) : Set (Unit × List ℕ) := {c | ∃ a < M, ∃ k < 3, c = ((), [a, k])}

theorem three_ad {E : Unit → List ℕ} {M j : ℕ} (hj : j < M) (x : ℕ → ℝ) {p : Prog Unit ℝ} {v : List ℝ} (hp : Ad E p (Comps M) v (fun _ => 0)) :
    Ad E (seq (atomic E () [j, 0] (x 0)) (seq (atomic E () [j, 1] (x 1)) (seq (atomic E () [j, 2] (x 2)) p))) (Comps M) v (pull j x) := by
  classical
  refine ((Ad.atomic (A := Comps M) ⟨j, hj, 0, by norm_num, rfl⟩).seq ((Ad.atomic (A := Comps M) ⟨j, hj, 1, by norm_num, rfl⟩).seq
    ((Ad.atomic (A := Comps M) ⟨j, hj, 2, by norm_num, rfl⟩).seq hp))).congr ?_
  rintro _ ⟨a, ha, k, hk, rfl⟩
  unfold pull
  by_cases haj : a = j
  · subst haj
    interval_cases k <;> simp
  · simp [haj]

theorem three_ad' {E : Unit → List ℕ} {M j : ℕ} (hj : j < M) (x : ℕ → ℝ) :
    Ad E (seq (atomic E () [j, 0] (x 0)) (seq (atomic E () [j, 1] (x 1)) (atomic E () [j, 2] (x 2)))) (Comps M) [] (pull j x) := by
  classical
  refine ((Ad.atomic (A := Comps M) ⟨j, hj, 0, by norm_num, rfl⟩).seq ((Ad.atomic (A := Comps M) ⟨j, hj, 1, by norm_num, rfl⟩).seq
    (Ad.atomic (A := Comps M) ⟨j, hj, 2, by norm_num, rfl⟩))).congr ?_
  rintro _ ⟨a, ha, k, hk, rfl⟩
  unfold pull
  by_cases haj : a = j
  · subst haj
    interval_cases k <;> simp
  · simp [haj]

variable {A : Atoms} {L : NList} {rc : ℝ} {mt : List ℕ} {nT : ℕ}

/-- Memory holding the graph of the nodes `ns`; `jOf` numbers the neighbours. -/
structure Holds (A : Atoms) (L : NList) (rc : ℝ) (ns : List ℕ) (jOf : ℕ → ℕ) (w : Mem) : Prop where
  nodeI : w.nodeI.take ns.length = ns
  nn : w.nn.take ns.length = ns.map (fun i => (nbrs A L rc i).length)
  fn : ∀ ii < ns.length, w.fn[ii]? = some (off (ns.map (fun i => (nbrs A L rc i).length)) ii)
  idx : w.idx.take (bonds A L rc ns).length = (bonds A L rc ns).map (fun p => jOf p.2)
  xyz : w.xyz.take (3 * (bonds A L rc ns).length) = tab2 (bonds A L rc ns).length 3 (vecs A (bonds A L rc ns))

/-- Views with this content are the arguments of the evaluator. -/
theorem graph_of {ns : List ℕ} {n : ℕ} (hn : ns.length = n) {jOf : ℕ → ℕ} {w : Mem} (h1 : w.types.take n = ns.map (species mt A))
    (h2 : w.nn.take n = ns.map (fun i => (nbrs A L rc i).length))
    (h3 : w.idx.take (bonds A L rc ns).length = (bonds A L rc ns).map (fun p => jOf p.2))
    (h4 : w.ntypes.take (bonds A L rc ns).length = (bonds A L rc ns).map (fun p => species mt A p.2))
    (h5 : w.xyz.take (3 * (bonds A L rc ns).length) = tab2 (bonds A L rc ns).length 3 (vecs A (bonds A L rc ns)))
    (h6 : w.r.take (bonds A L rc ns).length = (bonds A L rc ns).map (fun p => Real.sqrt (Lammps.d2 A p.1 p.2))) :
    w.graph n (bonds A L rc ns).length = (sysOf A L rc mt ns jOf).graph (vecs A (bonds A L rc ns)) := by
  subst hn
  unfold Mem.graph Sys.graph
  rw [h1, h2, h3, h4, h5, h6]
  have hr : (bonds A L rc ns).map (fun p => Real.sqrt (Lammps.d2 A p.1 p.2))
      = (List.range (sysOf A L rc mt ns jOf).E).map (fun e => len (vecs A (bonds A L rc ns) e)) := by
    refine List.ext_getElem (by simp [sysOf_E]) (fun e h1 h2 => ?_)
    rw [List.getElem_map, List.getElem_map, List.getElem_range, len_vecs]
  rw [hr]
  have hx : tab2 (bonds A L rc ns).length 3 (vecs A (bonds A L rc ns))
      = (List.range ((sysOf A L rc mt ns jOf).E * 3)).map (fun p => vecs A (bonds A L rc ns) (p / 3) (p % 3)) := by
    rw [sysOf_E]; rfl
  rw [hx]
  rfl

theorem graphViews_spec (V : PEnv) (hA : AtomsOk A mt nT) {ns : List ℕ} {n : ℕ} (hn : ns.length = n) (hns : ∀ i ∈ ns, EntryOk A L i)
    {node : ℕ → Option ℕ} (hnode : ∀ ii < n, node ii = some (nthN ns ii)) {look : ℕ → Option ℕ} {jOf : ℕ → ℕ}
    (hlook : ∀ i ∈ ns, ∀ j ∈ nbrs A L rc i, look j = some (jOf j)) (w : Mem) :
    ∃ w', graphViews V A L (rc * rc) mt n node look w = some (w', (bonds A L rc ns).length) ∧ Holds A L rc ns jOf w' ∧
      w'.graph n (bonds A L rc ns).length = (sysOf A L rc mt ns jOf).graph (vecs A (bonds A L rc ns)) := by
  obtain ⟨w1, a1, a2, a3, a4⟩ := nodeViews_spec (rc := rc) V hA hn hns hnode w
  have hlen : n ≤ w1.nn.length := by
    have := congrArg List.length a4
    rw [List.length_take, List.length_map, hn] at this
    omega
  have hoff : off (ns.map (fun i => (nbrs A L rc i).length)) ns.length = (bonds A L rc ns).length := bonds_nn ns
  have hcnt : reduceTo V.LN (countK w1.nn 0 n) = some (bonds A L rc ns).length := by
    rw [count_spec V.LN (by omega), List.drop_zero, a4, ← hoff]
    congr 1
    unfold off
    rw [List.take_of_length_le (by simp)]
  obtain ⟨w2, b1, b2, b3⟩ := scanFirst_spec V hlen
  have hb : ∀ ii < n, w2.fn[ii]? = some (off (ns.map (fun i => (nbrs A L rc i).length)) ii) := fun ii hii => by
    rw [b3 ii hii, ← a4]
    unfold off
    rw [List.take_take, min_eq_left (by omega)]
  obtain ⟨w3, c1, c2, c3, c4, c5, c6, c7, c8, c9⟩ := edgeViews_spec (rc := rc) (jOf := jOf) V hA hn hns hnode hb hlook rfl
  rw [b2] at c2 c3 c4
  subst hn
  refine ⟨w3, ?_, ⟨by rw [c2]; exact a2, by rw [c4]; exact a4, fun ii hii => by rw [c5]; exact hb ii hii, c6, c8⟩, ?_⟩
  · unfold graphViews
    exact (bind_of_some a1 _).trans <| (bind_of_some hcnt _).trans <| (bind_of_some b1 _).trans <| (bind_of_some c1 _)
  · exact graph_of rfl (by rw [c3]; exact a3) (by rw [c4]; exact a4) c6 c7 c8 c9

section
variable {ns : List ℕ} {jOf : ℕ → ℕ} {w : Mem} {F : ℕ → ℕ → ℝ} {forces : View ℝ} {M : ℕ}

theorem nodes_nn {ii : ℕ} (hii : ii < ns.length) :
    nthN (ns.map (fun i => (nbrs A L rc i).length)) ii = (nbrs A L rc (nthN ns ii)).length := by
  unfold nthN
  rw [List.getElem?_map, List.getElem?_eq_getElem hii]; rfl

theorem Holds.node (h : Holds A L rc ns jOf w) {ii : ℕ} (hii : ii < ns.length) :
    both w.nodeI[ii]? (both w.fn[ii]? w.nn[ii]?) = some (nthN ns ii, off (ns.map (fun i => (nbrs A L rc i).length)) ii,
      nthN (ns.map (fun i => (nbrs A L rc i).length)) ii) := by
  rw [take_get' h.nodeI hii, take_get' h.nn hii, h.fn ii hii, get_nthN hii, get_nthN (by simpa using hii)]
  rfl

theorem edge_lt {ii jj : ℕ} (hii : ii < ns.length) (hjj : jj < nthN (ns.map (fun i => (nbrs A L rc i).length)) ii) :
    off (ns.map (fun i => (nbrs A L rc i).length)) ii + jj < (bonds A L rc ns).length := by
  have : off (ns.map (fun i => (nbrs A L rc i).length)) ns.length = (bonds A L rc ns).length := bonds_nn ns
  rw [← this]
  exact off_add_lt hii (get_nthN (by simpa using hii)) hjj

theorem endA_off {ii jj : ℕ} (hii : ii < ns.length) (hjj : jj < nthN (ns.map (fun i => (nbrs A L rc i).length)) ii) :
    endA A L rc ns (off (ns.map (fun i => (nbrs A L rc i).length)) ii + jj) = nthN ns ii := by
  rw [nodes_nn hii] at hjj
  have hn : nthN ns ii = ns[ii] := by unfold nthN; rw [List.getElem?_eq_getElem hii]; rfl
  unfold endA
  rw [bonds_get hii (by rw [← hn]; exact hjj)]
  exact hn.symm

theorem forceAt_eq (hF : ∀ e < (bonds A L rc ns).length, ∀ c < 3, forces.get [3 * e + c] = some (F e c)) {e : ℕ}
    (he : e < (bonds A L rc ns).length) : forceAt forces e = some (F e 0, F e 1, F e 2) := by
  have h0 := hF e he 0 (by norm_num)
  rw [add_zero] at h0
  unfold forceAt
  rw [h0, hF e he 1 (by norm_num), hF e he 2 (by norm_num)]
  rfl

theorem Holds.vecAt (h : Holds A L rc ns jOf w) {e : ℕ} (he : e < (bonds A L rc ns).length) :
    vecAt w.xyz e = some (vecs A (bonds A L rc ns) e 0, vecs A (bonds A L rc ns) e 1, vecs A (bonds A L rc ns) e 2) := by
  have hg : ∀ c < 3, w.xyz[3 * e + c]? = some (vecs A (bonds A L rc ns) e c) := fun c hc => by
    rw [take_get' h.xyz (by omega), mul_comm 3 e]
    exact getElem?_tab2 he hc
  have h0 := hg 0 (by norm_num)
  rw [add_zero] at h0
  unfold Pair.vecAt
  rw [h0, hg 1 (by norm_num), hg 2 (by norm_num)]
  rfl

/-- The force kernel. -/
theorem forceK_ad (h : Holds A L rc ns jOf w) (hF : ∀ e < (bonds A L rc ns).length, ∀ c < 3, forces.get [3 * e + c] = some (F e c))
    (hns : ∀ i ∈ ns, i < M) (hjs : ∀ i ∈ ns, ∀ j ∈ nbrs A L rc i, jOf j < M) (E : Unit → List ℕ) :
    Ad E (forceK ns.length w forces E) (Comps M) [] (fun c => ∑ e ∈ Finset.range (bonds A L rc ns).length,
      (pull (jOf (endB A L rc ns e)) (F e) c - pull (endA A L rc ns e) (F e) c)) := by
  unfold forceK
  have hoff : off (ns.map (fun i => (nbrs A L rc i).length)) ns.length = (bonds A L rc ns).length := bonds_nn ns
  refine (Ad.parFor (d := fun ii c => ∑ jj ∈ Finset.range (nthN (ns.map (fun i => (nbrs A L rc i).length)) ii),
    pull (jOf (endB A L rc ns (off (ns.map (fun i => (nbrs A L rc i).length)) ii + jj)))
      (F (off (ns.map (fun i => (nbrs A L rc i).length)) ii + jj)) c
    + pull (nthN ns ii) (fun k => -(∑ jj ∈ Finset.range (nthN (ns.map (fun i => (nbrs A L rc i).length)) ii),
      F (off (ns.map (fun i => (nbrs A L rc i).length)) ii + jj) k)) c) (fun ii hii => ⟨[], Ad.opt (h.node hii) ?_⟩)).congr ?_
  · have hmem : nthN ns ii ∈ ns := by
      unfold nthN
      rw [List.getElem?_eq_getElem hii, Option.getD_some]
      exact List.getElem_mem _
    refine Ad.par (V := fun jj => [F (off (ns.map (fun i => (nbrs A L rc i).length)) ii + jj) 0,
      F (off (ns.map (fun i => (nbrs A L rc i).length)) ii + jj) 1, F (off (ns.map (fun i => (nbrs A L rc i).length)) ii + jj) 2])
      (fun jj hjj => ?_) (fun vs => ⟨[], _, three_ad' (hns _ hmem) (fun k => -(red k vs))⟩) ?_
    · have he := edge_lt hii hjj
      have hm := ends_mem he
      have hidx : w.idx[off (ns.map (fun i => (nbrs A L rc i).length)) ii + jj]?
          = some (jOf (endB A L rc ns (off (ns.map (fun i => (nbrs A L rc i).length)) ii + jj))) := by
        rw [take_get' h.idx he, List.getElem?_map]
        unfold endB
        rw [List.getElem?_eq_getElem he]; rfl
      refine Ad.opt (a := (jOf (endB A L rc ns (off (ns.map (fun i => (nbrs A L rc i).length)) ii + jj)),
        F (off (ns.map (fun i => (nbrs A L rc i).length)) ii + jj) 0, F (off (ns.map (fun i => (nbrs A L rc i).length)) ii + jj) 1,
        F (off (ns.map (fun i => (nbrs A L rc i).length)) ii + jj) 2)) (by rw [hidx, forceAt_eq hF he]; rfl) ?_
      exact three_ad (hjs _ hm.1 _ hm.2) (F (off (ns.map (fun i => (nbrs A L rc i).length)) ii + jj)) Ad.ret
    · refine (three_ad' (hns _ hmem) (fun k => -(red k (tab (nthN (ns.map (fun i => (nbrs A L rc i).length)) ii)
        (fun jj => [F (off (ns.map (fun i => (nbrs A L rc i).length)) ii + jj) 0,
          F (off (ns.map (fun i => (nbrs A L rc i).length)) ii + jj) 1,
          F (off (ns.map (fun i => (nbrs A L rc i).length)) ii + jj) 2]))))).congr ?_
      rintro _ ⟨a, ha, k, hk, rfl⟩
      unfold pull
      dsimp only
      rw [red_tab]
      by_cases haj : a = nthN ns ii
      · rw [if_pos haj, if_pos haj]
        interval_cases k <;> rfl
      · rw [if_neg haj, if_neg haj]
  · rintro _ ⟨a, ha, k, hk, rfl⟩
    have h2 : ∀ ii ∈ Finset.range ns.length,
        ∑ jj ∈ Finset.range (nthN (ns.map (fun i => (nbrs A L rc i).length)) ii),
          pull (jOf (endB A L rc ns (off (ns.map (fun i => (nbrs A L rc i).length)) ii + jj)))
            (F (off (ns.map (fun i => (nbrs A L rc i).length)) ii + jj)) ((), [a, k])
          + pull (nthN ns ii) (fun k => -(∑ jj ∈ Finset.range (nthN (ns.map (fun i => (nbrs A L rc i).length)) ii),
            F (off (ns.map (fun i => (nbrs A L rc i).length)) ii + jj) k)) ((), [a, k])
        = ∑ jj ∈ Finset.range (nthN (ns.map (fun i => (nbrs A L rc i).length)) ii),
          (fun e => pull (jOf (endB A L rc ns e)) (F e) ((), [a, k]) - pull (endA A L rc ns e) (F e) ((), [a, k]))
            (off (ns.map (fun i => (nbrs A L rc i).length)) ii + jj) := by
      intro ii hii
      have hii' := Finset.mem_range.mp hii
      dsimp only
      rw [Finset.sum_sub_distrib, sub_eq_add_neg]
      congr 1
      have : ∀ jj ∈ Finset.range (nthN (ns.map (fun i => (nbrs A L rc i).length)) ii),
          pull (endA A L rc ns (off (ns.map (fun i => (nbrs A L rc i).length)) ii + jj))
            (F (off (ns.map (fun i => (nbrs A L rc i).length)) ii + jj)) ((), [a, k])
          = if a = nthN ns ii then F (off (ns.map (fun i => (nbrs A L rc i).length)) ii + jj) k else 0 := by
        intro jj hjj
        rw [endA_off hii' (Finset.mem_range.mp hjj)]; rfl
      rw [Finset.sum_congr rfl this]
      unfold pull
      dsimp only
      by_cases haj : a = nthN ns ii
      · simp [haj]
      · simp [haj]
    rw [Finset.sum_congr rfl h2, sum_off (by simp) (fun e => pull (jOf (endB A L rc ns e)) (F e) ((), [a, k])
      - pull (endA A L rc ns e) (F e) ((), [a, k])), hoff]

/-- The force reduction. -/
theorem force_spec (Lr : Launcher ℝ) (h : Holds A L rc ns jOf w)
    (hF : ∀ e < (bonds A L rc ns).length, ∀ c < 3, forces.get [3 * e + c] = some (F e c))
    (hns : ∀ i ∈ ns, i < M) (hjs : ∀ i ∈ ns, ∀ j ∈ nbrs A L rc i, jOf j < M) (f0 : ℕ → ℕ → ℝ) :
    ∃ v, Lr.launch1 (forceK ns.length w forces (fun _ => [M, 3])) ⟨[M, 3], tab2 M 3 f0⟩ = some v ∧
      v.data = tab2 M 3 (fun a c => f0 a c + ∑ e ∈ Finset.range (bonds A L rc ns).length,
        F e c * ((if a = jOf (endB A L rc ns e) then 1 else 0) - if a = endA A L rc ns e then 1 else 0)) := by
  have hget : ∀ a < M, ∀ c < 3, (⟨[M, 3], tab2 M 3 f0⟩ : View ℝ).get [a, c] = some (f0 a c) := fun a ha c hc => by
    unfold View.get
    rw [flat_two ha hc, Option.bind_some]
    exact getElem?_tab2 ha hc
  obtain ⟨v, h1, h2, h3, h4, -⟩ := launch1_lc Lr (v := ⟨[M, 3], tab2 M 3 f0⟩) (fun c => f0 (c.headD 0) (c.tail.headD 0))
    (forceK_ad h hF hns hjs _).lc (by
      rintro c ⟨a, ha, k, hk, hc⟩
      cases hc
      exact hget a ha k hk)
  refine ⟨v, h1, ?_⟩
  refine data_eq2 (h3 (by simp [View.Ok])) h2 (fun a ha c hc => ?_)
  rw [h4 [a, c] ⟨a, ha, c, hc, rfl⟩]
  congr 1
  change f0 a c + _ = f0 a c + _
  congr 1
  refine Finset.sum_congr rfl (fun e _ => ?_)
  unfold pull
  dsimp only
  split_ifs <;> ring

/-- The six terms of an edge. -/
noncomputable def six (X : ℕ → ℝ) (f : ℕ → ℝ) (k : ℕ) : ℝ := 1 / 2 * (X (voigt k).1 * f (voigt k).2 + X (voigt k).2 * f (voigt k).1)

def Six : Set (Unit × List ℕ) := {c | ∃ k < 6, c = ((), [k])}

theorem six_ad {E : Unit → List ℕ} (x : ℕ → ℝ) :
    Ad E (seq (atomic E () [0] (x 0)) (seq (atomic E () [1] (x 1)) (seq (atomic E () [2] (x 2)) (seq (atomic E () [3] (x 3))
      (seq (atomic E () [4] (x 4)) (atomic E () [5] (x 5))))))) Six [] (fun c => x (c.2.headD 0)) := by
  classical
  refine ((Ad.atomic (A := Six) ⟨0, by norm_num, rfl⟩).seq ((Ad.atomic (A := Six) ⟨1, by norm_num, rfl⟩).seq ((Ad.atomic (A := Six) ⟨2, by norm_num, rfl⟩).seq
    ((Ad.atomic (A := Six) ⟨3, by norm_num, rfl⟩).seq ((Ad.atomic (A := Six) ⟨4, by norm_num, rfl⟩).seq (Ad.atomic (A := Six) ⟨5, by norm_num, rfl⟩)))))).congr ?_
  rintro _ ⟨k, hk, rfl⟩
  interval_cases k <;> simp

/-- The virial kernel. -/
theorem virialK_ad (h : Holds A L rc ns jOf w) (hF : ∀ e < (bonds A L rc ns).length, ∀ c < 3, forces.get [3 * e + c] = some (F e c))
    (E : Unit → List ℕ) :
    Ad E (virialK ns.length w forces E) Six [] (fun c => ∑ e ∈ Finset.range (bonds A L rc ns).length,
      six (vecs A (bonds A L rc ns) e) (F e) (c.2.headD 0)) := by
  unfold virialK
  have hoff : off (ns.map (fun i => (nbrs A L rc i).length)) ns.length = (bonds A L rc ns).length := bonds_nn ns
  refine (Ad.parFor (d := fun ii c => ∑ jj ∈ Finset.range (nthN (ns.map (fun i => (nbrs A L rc i).length)) ii),
    (fun e => six (vecs A (bonds A L rc ns) e) (F e) (c.2.headD 0)) (off (ns.map (fun i => (nbrs A L rc i).length)) ii + jj))
    (fun ii hii => ⟨[], Ad.opt (h.node hii) ?_⟩)).congr ?_
  · let W : ℕ → List ℝ := fun e => (List.range 6).map (six (vecs A (bonds A L rc ns) e) (F e))
    refine (Ad.par (V := fun jj => W (off (ns.map (fun i => (nbrs A L rc i).length)) ii + jj)) (d := fun _ _ => 0)
      (fun jj hjj => ?_) (fun vs => ⟨[], _, six_ad (fun k => red k vs)⟩) (six_ad (fun k => red k _))).congr ?_
    · have he := edge_lt hii hjj
      refine Ad.opt (a := ((vecs A (bonds A L rc ns) (off (ns.map (fun i => (nbrs A L rc i).length)) ii + jj) 0,
        vecs A (bonds A L rc ns) (off (ns.map (fun i => (nbrs A L rc i).length)) ii + jj) 1,
        vecs A (bonds A L rc ns) (off (ns.map (fun i => (nbrs A L rc i).length)) ii + jj) 2),
        F (off (ns.map (fun i => (nbrs A L rc i).length)) ii + jj) 0, F (off (ns.map (fun i => (nbrs A L rc i).length)) ii + jj) 1,
        F (off (ns.map (fun i => (nbrs A L rc i).length)) ii + jj) 2)) (by rw [h.vecAt he, forceAt_eq hF he]; rfl) ?_
      have : W (off (ns.map (fun i => (nbrs A L rc i).length)) ii + jj) = _ := rfl
      dsimp only
      rw [show ∀ x y z fx fy fz : ℝ, [x * fx, y * fy, z * fz, 1 / 2 * (x * fy + y * fx), 1 / 2 * (x * fz + z * fx),
        1 / 2 * (y * fz + z * fy)] = (List.range 6).map (six (fun k => [x, y, z].getD k 0) (fun k => [fx, fy, fz].getD k 0)) by
          intro x y z fx fy fz
          simp only [show List.range 6 = [0, 1, 2, 3, 4, 5] from rfl, List.map, six, voigt, List.getD, List.getElem?_cons_zero,
            List.getElem?_cons_succ, Option.getD_some]
          congr 1
          · ring
          congr 1
          · ring
          congr 1
          ring]
      exact Ad.ret
    · rintro _ ⟨k, hk, rfl⟩
      dsimp only
      rw [red_tab, Finset.sum_const_zero, zero_add]
      refine Finset.sum_congr rfl (fun jj _ => ?_)
      change six _ _ k = (((List.range 6).map _).getD k 0 : ℝ)
      rw [List.getD, List.getElem?_map, List.getElem?_range hk]; rfl
  · rintro _ ⟨k, hk, rfl⟩
    dsimp only
    rw [sum_off (by simp) (fun e => six (vecs A (bonds A L rc ns) e) (F e) (([k] : List ℕ).headD 0)), hoff]

theorem addSix_spec {v : View ℝ} {x : ℕ → ℝ} (hv : ∀ k < 6, v.get [k] = some (x k)) {m : ℕ} (hm : 6 ≤ m) (v0 : ℕ → ℝ) :
    addSix v (tab m v0) = some (tab m (fun k => v0 k + if k < 6 then x k else 0)) := by
  unfold addSix
  have h := loop_eq (n := 6) (fun j => tab m (fun k => v0 k + if k < j then x k else 0)) (body := fun k l => do
    let x ← v.get [k]
    ad l k x) (fun k hk => by
      rw [hv k hk]
      simp only [Option.bind_eq_bind, Option.bind_some]
      rw [ad_tab _ (by omega)]
      congr 1
      apply tab_congr
      intro j _
      by_cases e : j = k
      · subst e; simp
      · rw [Function.update_of_ne e]
        have : (j < k + 1) ↔ j < k := by omega
        simp only [this])
  simpa using h

/-- The virial reduction. -/
theorem virial_spec (Lr : Launcher ℝ) (h : Holds A L rc ns jOf w)
    (hF : ∀ e < (bonds A L rc ns).length, ∀ c < 3, forces.get [3 * e + c] = some (F e c)) {m : ℕ} (hm : 6 ≤ m) (v0 : ℕ → ℝ) :
    (Lr.launch1 (virialK ns.length w forces (fun _ => [6])) (View.new [6] 0)).bind (fun v => addSix v (tab m v0))
      = some (tab m (fun k => v0 k + if k < 6 then ∑ e ∈ Finset.range (bonds A L rc ns).length,
        1 / 2 * (vecs A (bonds A L rc ns) e (voigt k).1 * F e (voigt k).2
          + vecs A (bonds A L rc ns) e (voigt k).2 * F e (voigt k).1) else 0)) := by
  obtain ⟨v, h1, h2, h3, h4, -⟩ := launch1_lc Lr (v := View.new [6] (0 : ℝ)) (fun _ => 0) (virialK_ad h hF _).lc (by
      rintro c ⟨k, hk, hc⟩
      cases hc
      exact View.get_new (flat_one hk) 0)
  rw [show Lr.launch1 (virialK ns.length w forces (fun _ => [6])) (View.new [6] 0) = some v from h1, Option.bind_some]
  refine addSix_spec (fun k hk => ?_) hm v0
  rw [h4 [k] ⟨k, hk, rfl⟩, zero_add]
  rfl

theorem energy_spec (Lr : Launcher ℝ) {energies : View ℝ} {n : ℕ} {En : ℕ → ℝ} (h : ∀ i < n, energies.get [i] = some (En i)) :
    reduceTo Lr (energyK energies n) = some (∑ i ∈ Finset.range n, En i) := by
  unfold energyK
  exact reduceTo_eq Lr (fun i hi E => Ret.opt (h i hi) (Ret.ret _))

theorem eatom_spec (Lr : Launcher ℝ) {energies : View ℝ} {n : ℕ} {En : ℕ → ℝ} (h : ∀ i < n, energies.get [i] = some (En i)) {ea : List ℝ}
    (hn : n ≤ ea.length) :
    (Lr.launch1 (eatomK energies n (fun _ => [ea.length])) ⟨[ea.length], ea⟩).map View.data
      = some (tab ea.length (fun i => if i < n then nth ea i + En i else nth ea i)) := by
  have hget : ∀ i < ea.length, (⟨[ea.length], ea⟩ : View ℝ).get [i] = some (nth ea i) := fun i hi => by
    rw [get_one rfl hi]; exact get_nth hi
  obtain ⟨v, h1, h2, h3, h4, h5⟩ := launch1_lc Lr (v := ⟨[ea.length], ea⟩) (fun c => nth ea (c.headD 0))
    (p := eatomK energies n (fun _ => [ea.length])) (q := fun c x => x + En (c.2.headD 0))
    (Lc.parFor (T := fun i => {((), [i])}) (fun i hi => Lc.opt (h i hi) (Lc.plus (fun _ => rfl)))
      (fun i _ j _ c h1 h2 => by
        have := h1.symm.trans h2
        simpa using this)) (by
      rintro c ⟨i, hi, hc⟩
      cases hc
      exact hget i (by omega))
  rw [h1, Option.map_some]
  congr 1
  refine data_eq (h3 (by simp [View.Ok])) h2 (fun i hi => ?_)
  by_cases hin : i < n
  · rw [h4 [i] ⟨i, hin, rfl⟩, if_pos hin]; rfl
  · rw [h5 [i], hget i hi, if_neg hin]
    rintro ⟨k, hk, hc⟩
    have : i = k := by simpa using hc
    omega

/-- Everything after the evaluation. -/
theorem finish_spec (V : PEnv) (h : Holds A L rc ns jOf w) {energies : View ℝ} {nE : ℕ} {En : ℕ → ℝ}
    (hEn : ∀ i < nE, energies.get [i] = some (En i))
    (hF : ∀ e < (bonds A L rc ns).length, ∀ c < 3, forces.get [3 * e + c] = some (F e c))
    (hns : ∀ i ∈ ns, i < M) (hjs : ∀ i ∈ ns, ∀ j ∈ nbrs A L rc i, jOf j < M) {m : ℕ} {f0 : ℕ → ℕ → ℝ} {v0 : ℕ → ℝ} {eng : ℝ}
    {ea : List ℝ} (hea : nE ≤ ea.length) (hm : 6 ≤ m) {fl : Flags} (hv : fl.vAtom = false) :
    finish V fl nE ns.length w energies forces ⟨eng, ea, tab2 M 3 f0, tab m v0⟩ = some
      ⟨if fl.eGlobal then eng + ∑ i ∈ Finset.range nE, En i else eng,
       if fl.eAtom then tab ea.length (fun i => if i < nE then nth ea i + En i else nth ea i) else ea,
       tab2 M 3 (fun a c => f0 a c + ∑ e ∈ Finset.range (bonds A L rc ns).length,
        F e c * ((if a = jOf (endB A L rc ns e) then 1 else 0) - if a = endA A L rc ns e then 1 else 0)),
       if fl.vGlobal then tab m (fun k => v0 k + if k < 6 then ∑ e ∈ Finset.range (bonds A L rc ns).length,
        1 / 2 * (vecs A (bonds A L rc ns) e (voigt k).1 * F e (voigt k).2
          + vecs A (bonds A L rc ns) e (voigt k).2 * F e (voigt k).1) else 0) else tab m v0⟩ := by
  obtain ⟨v, h1, h2⟩ := force_spec V.L h hF hns hjs f0
  have hlen : (tab2 M 3 f0).length / 3 = M := by simp
  unfold finish
  dsimp only
  rw [energy_spec V.L hEn, eatom_spec V.L hEn hea, virial_spec V.L h hF hm v0, hlen, h1, hv]
  simp only [Option.map_some]
  cases fl.eGlobal <;> cases fl.eAtom <;> cases fl.vGlobal <;> simp [h2]

end

end Verif.Kokkos.Pair
