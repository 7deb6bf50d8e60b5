import Verif.Lemmas.Lammps.Build

/-! # Graph building in `compute_no_mpi_message_passing` -/

namespace Verif.Lammps
open Verif.MACE Verif.Spec

variable {A : Atoms} {L : NList} {rc : ℝ} {mt : List ℕ} {nT : ℕ} {w : Work}

theorem mark_loop {n k : ℕ} {ns : List ℕ} (hk : k ≤ ns.length) (hlt : ∀ i ∈ ns.take k, i < n) :
    ∃ l, loop k (fun ii l => do
      let i ← ns[ii]?
      wr l i true) (List.replicate n false) = some l ∧ l.length = n ∧ ∀ j < n, l[j]? = some (decide (j ∈ ns.take k)) := by
  obtain ⟨l, h1, h2, h3⟩ := loop_inv (n := k) (s := List.replicate n false)
    (body := fun ii l => do
      let i ← ns[ii]?
      wr l i true)
    (fun ii l => l.length = n ∧ ∀ j < n, l[j]? = some (decide (j ∈ ns.take ii)))
    ⟨by simp, fun j hj => by simp [hj]⟩ (fun ii hii l hl => by
      have hi : ii < ns.length := by omega
      have htake : ns.take (ii + 1) = ns.take ii ++ [ns[ii]] := by rw [List.take_add_one, List.getElem?_eq_getElem hi]; rfl
      have hb : ns[ii] < n := hlt _ (List.mem_take_iff_getElem.mpr ⟨ii, by omega, rfl⟩)
      refine ⟨_, by rw [List.getElem?_eq_getElem hi]; exact wr_eq true (by rw [hl.1]; exact hb), by simp [hl.1], fun j hj => ?_⟩
      rw [htake]
      by_cases e : ns[ii] = j
      · subst e
        rw [List.getElem?_set_self (by rw [hl.1]; exact hb)]
        rw [decide_eq_true (List.mem_append_right _ (List.mem_singleton_self _))]
      · rw [List.getElem?_set_ne e, hl.2 j hj]
        have : (j ∈ ns.take ii ++ [ns[ii]]) ↔ j ∈ ns.take ii := by
          rw [List.mem_append, List.mem_singleton]
          exact ⟨fun h => h.elim id (fun h => absurd h.symm e), Or.inl⟩
        simp only [this])
  exact ⟨l, h1, h2, h3⟩

open Classical in
theorem markGhosts_spec (hA : AtomsOk A mt nT) (hL : ListOk A L) :
    ∃ g, markGhosts A L (rc * rc) = some g ∧ g.length = A.nlocal + A.nghost ∧
      ∀ j < A.nlocal + A.nghost, g[j]? = some (decide (j ∉ centres L ∧ ∃ i ∈ centres L, j ∈ nbrs A L rc i)) := by
  obtain ⟨l, l1, l2, l3⟩ := mark_loop (n := A.nlocal + A.nghost) hL.inum (fun i hi => (hL.entry i hi).lt)
  unfold markGhosts
  rw [l1]
  simp only [Option.bind_eq_bind, Option.bind_some]
  obtain ⟨g, h1, h2, h3⟩ := loop_inv (n := L.inum) (s := List.replicate (A.nlocal + A.nghost) false)
    (body := fun ii g => (L.ilist[ii]?).bind (fun i =>
      neighLoop A L (rc * rc) i (fun j _ _ _ _ g => (l[j]?).bind (fun b => if b = false then wr g j true else some g)) g))
    (fun ii g => g.length = A.nlocal + A.nghost ∧ ∀ j < A.nlocal + A.nghost,
      g[j]? = some (decide (j ∉ centres L ∧ ∃ i ∈ L.ilist.take ii, j ∈ nbrs A L rc i)))
    ⟨by simp, fun j hj => by simp [hj]⟩ (fun ii hii g hg => by
      have hmem := centre_mem hL hii
      have hent := hL.entry _ hmem
      generalize hi : nthN L.ilist ii = i at hmem hent
      have hget : L.ilist[ii]? = some i := by rw [get_nthN (by have := hL.inum; omega), hi]
      have htake : L.ilist.take (ii + 1) = L.ilist.take ii ++ [i] := by rw [take_get hL.inum hii, hi]
      obtain ⟨g', e1, e2, e3⟩ := foldO_inv (l := nbrs A L rc i) (s := g)
        (body := fun j g => (l[j]?).bind (fun b => if b = false then wr g j true else some g))
        (fun js g => g.length = A.nlocal + A.nghost ∧ ∀ j < A.nlocal + A.nghost,
          g[j]? = some (decide (j ∉ centres L ∧ ((∃ i ∈ L.ilist.take ii, j ∈ nbrs A L rc i) ∨ j ∈ js))))
        ⟨hg.1, fun j hj => by rw [hg.2 j hj]; simp⟩
        (fun js j hj _ g hg => by
          have hjn := nbrs_lt hent hj
          rw [l3 j hjn]
          simp only [Option.bind_some, decide_eq_false_iff_not]
          change ∃ s', (if j ∉ centres L then _ else _) = some s' ∧ _
          by_cases hc : j ∈ centres L
          · refine ⟨g, by rw [if_neg (not_not.mpr hc)], hg.1, fun k hk => ?_⟩
            rw [hg.2 k hk]
            congr 1
            rw [decide_eq_decide]
            by_cases e : k = j
            · subst e; simp [hc]
            · simp [e]
          · refine ⟨_, by rw [if_pos hc]; exact wr_eq true (by rw [hg.1]; exact hjn), by simp [hg.1], fun k hk => ?_⟩
            by_cases e : j = k
            · subst e
              rw [List.getElem?_set_self (by rw [hg.1]; exact hjn)]
              simp [hc]
            · rw [List.getElem?_set_ne e, hg.2 k hk]
              congr 1
              rw [decide_eq_decide]
              simp [Ne.symm e])
      refine ⟨g', ?_, e2, fun j hj => ?_⟩
      · rw [hget, Option.bind_some, neighLoop_eq hA hent]
        exact e1
      · rw [e3 j hj, htake]
        congr 1
        rw [decide_eq_decide]
        simp)
  exact ⟨g, h1, h2, h3⟩

theorem count_filter_range (g : List Bool) : g.count true = ((List.range g.length).filter (fun j => g[j]?.getD false)).length := by
  induction g using List.reverseRecOn with
  | nil => rfl
  | append_singleton g b ih =>
    rw [List.count_append, ih, List.length_append, List.length_singleton, List.range_succ, List.filter_append, List.length_append]
    congr 1
    · congr 1
      apply List.filter_congr
      intro j hj
      rw [List.getElem?_append_left (List.mem_range.mp hj)]
    · cases b <;> simp

theorem ghostIndices_spec (g : List Bool) (old : List ℕ) :
    ghostIndices g old = some (((List.range g.length).filter (fun j => g[j]?.getD false)).length,
      (List.range g.length).filter (fun j => g[j]?.getD false)) := by
  unfold ghostIndices
  obtain ⟨q, h1, h2, h3⟩ := loop_inv (n := g.length) (s := ((0 : ℕ), resize old (g.count true)))
    (body := fun ii (q : ℕ × List ℕ) => do
      let b ← g[ii]?
      if b then do
        let l ← wr q.2 q.1 ii
        pure (q.1 + 1, l)
      else some q)
    (fun ii q => q.1 = ((List.range ii).filter (fun j => g[j]?.getD false)).length ∧
      Pre q.2 (g.count true) ((List.range ii).filter (fun j => g[j]?.getD false)))
    ⟨rfl, Pre.nil (by simp)⟩ (fun ii hii q hq => by
      obtain ⟨q1, l⟩ := q
      obtain ⟨k1, k2⟩ := hq
      simp only at k1 k2
      subst k1
      rw [List.getElem?_eq_getElem hii, List.range_succ, List.filter_append]
      simp only [Option.bind_eq_bind, Option.bind_some]
      cases hb : g[ii] with
      | false => exact ⟨_, rfl, by simp [hii, hb], by simpa [hii, hb] using k2⟩
      | true =>
        have hlt : ((List.range ii).filter (fun j => g[j]?.getD false)).length < g.count true := by
          rw [count_filter_range]
          have : ((List.range (ii + 1)).filter (fun j => g[j]?.getD false)).length
              ≤ ((List.range g.length).filter (fun j => g[j]?.getD false)).length :=
            List.Sublist.length_le (List.Sublist.filter _ (List.range_sublist.mpr hii))
          rw [List.range_succ, List.filter_append, List.length_append] at this
          simp only [List.filter_cons, List.getElem?_eq_getElem hii, hb, Option.getD_some, if_true, List.filter_nil,
            List.length_singleton] at this
          omega
        obtain ⟨b, a, c⟩ := k2.wr (v := ii) hlt
        refine ⟨_, by simp only [if_true, a, Option.bind_some]; rfl, by simp [hii, hb], by simpa [hii, hb] using c⟩)
  dsimp only
  rw [h1]
  simp only [Option.bind_eq_bind, Option.bind_some, Option.pure_def]
  rw [h3.done (count_filter_range g).symm, count_filter_range]

theorem ghosts_spec (hA : AtomsOk A mt nT) (hL : ListOk A L) (old : List ℕ) :
    ∃ g, markGhosts A L (rc * rc) = some g ∧ ghostIndices g old = some ((halo A L rc).length, halo A L rc) := by
  classical
  obtain ⟨g, h1, h2, h3⟩ := markGhosts_spec (rc := rc) hA hL
  refine ⟨g, h1, ?_⟩
  rw [ghostIndices_spec]
  have : (List.range g.length).filter (fun j => g[j]?.getD false) = halo A L rc := by
    unfold halo
    rw [h2]
    apply List.filter_congr
    intro j hj
    rw [h3 j (List.mem_range.mp hj), Option.getD_some]
  rw [this]

/-- The nodes: listed atoms, then the halo. -/
noncomputable def allNodes (A : Atoms) (L : NList) (rc : ℝ) : List ℕ := centres L ++ halo A L rc

theorem mem_halo {j : ℕ} : j ∈ halo A L rc ↔ j < A.nlocal + A.nghost ∧ j ∉ centres L ∧ ∃ i ∈ centres L, j ∈ nbrs A L rc i := by
  classical
  unfold halo
  rw [List.mem_filter, List.mem_range, decide_eq_true_iff]

theorem allNodes_nodup (hL : ListOk A L) : (allNodes A L rc).Nodup := by
  classical
  unfold allNodes
  rw [List.nodup_append]
  refine ⟨hL.nodup, List.Nodup.filter _ List.nodup_range, ?_⟩
  rintro a ha b hb rfl
  exact (mem_halo.mp hb).2.1 ha

theorem nbr_mem_allNodes (hL : ListOk A L) {i j : ℕ} (hi : i ∈ centres L) (hj : j ∈ nbrs A L rc i) : j ∈ allNodes A L rc := by
  unfold allNodes
  by_cases h : j ∈ centres L
  · exact List.mem_append_left _ h
  · exact List.mem_append_right _ (mem_halo.mpr ⟨nbrs_lt (hL.entry i hi) hj, h, i, hi, hj⟩)

theorem node_get (hL : ListOk A L) {ii : ℕ} (h : ii < L.inum + (halo A L rc).length) :
    (if ii < L.inum then L.ilist[ii]? else (halo A L rc)[ii - L.inum]?) = (allNodes A L rc)[ii]? := by
  unfold allNodes
  have hl := centres_length hL
  by_cases hi : ii < L.inum
  · rw [if_pos hi, List.getElem?_append_left (by omega), centres, List.getElem?_take_of_lt hi]
  · rw [if_neg hi, List.getElem?_append_right (by omega), hl]

/-- Body of the loop in `nodesNoMpi`. -/
noncomputable def nodeBody (A : Atoms) (L : NList) (rc : ℝ) (mt : List ℕ) (get : ℕ → Option ℕ) (ii : ℕ)
    (q : Work × (ℕ → Option ℕ)) : Option (Work × (ℕ → Option ℕ)) := do
  let i ← get ii
  let nodeI ← wr q.1.nodeI ii i
  let ti ← maceType mt A i
  let types ← wr q.1.types ii ti
  let nn ← neighLoop A L (rc * rc) i (fun _ _ _ _ _ nn => ad nn ii 1) q.1.nn
  pure ({ q.1 with nodeI := nodeI, types := types, nn := nn }, Function.update q.2 i (some ii))

theorem nodesNoMpi_spec (hA : AtomsOk A mt nT) (hL : ListOk A L) (hH : ∀ j ∈ halo A L rc, EntryOk A L j) :
    ∃ w' m, nodesNoMpi A L (rc * rc) mt (halo A L rc).length (halo A L rc) w = some (w', m) ∧
      NodesFilled A mt (allNodes A L rc).length (allNodes A L rc) ((allNodes A L rc).map (fun i => (nbrs A L rc i).length)) w' ∧
      (∀ i ∈ allNodes A L rc, m i = some (rank (allNodes A L rc) i)) ∧ ∀ i, i ∉ allNodes A L rc → m i = none := by
  have hlen : (allNodes A L rc).length = L.inum + (halo A L rc).length := by
    rw [allNodes, List.length_append, centres_length hL]
  have hent : ∀ i ∈ allNodes A L rc, EntryOk A L i := by
    intro i hi
    rcases List.mem_append.mp hi with h | h
    · exact hL.entry i h
    · exact hH i h
  have hnd := allNodes_nodup (rc := rc) hL
  unfold nodesNoMpi
  have hbody : ∀ ii < (allNodes A L rc).length, ∀ q : Work × (ℕ → Option ℕ),
      nodeBody A L rc mt (fun ii => if ii < L.inum then L.ilist[ii]? else (halo A L rc)[ii - L.inum]?) ii q
        = nodeBody A L rc mt (fun ii => (allNodes A L rc)[ii]?) ii q := by
    intro ii hii q
    unfold nodeBody
    dsimp only
    rw [node_get (rc := rc) (ii := ii) hL (by omega)]
  change ∃ w' m, loop (L.inum + (halo A L rc).length)
    (nodeBody A L rc mt (fun ii => if ii < L.inum then L.ilist[ii]? else (halo A L rc)[ii - L.inum]?)) _ = _ ∧ _
  rw [← hlen, loop_congr hbody]
  generalize hns : allNodes A L rc = ns at hent hnd
  clear hbody hlen
  obtain ⟨q, h1, h2, h3, h4, h5, h6⟩ := loop_inv (n := ns.length)
    (s := (({ w with nodeI := resize w.nodeI ns.length, types := resize w.types ns.length, nn := List.replicate ns.length 0 } : Work),
      fun _ => (none : Option ℕ)))
    (body := nodeBody A L rc mt (fun ii => ns[ii]?))
    (fun ii q => Pre q.1.nodeI ns.length (ns.take ii) ∧ Pre q.1.types ns.length ((ns.take ii).map (species mt A)) ∧
      q.1.nn = (ns.take ii).map (fun i => (nbrs A L rc i).length) ++ List.replicate (ns.length - ii) 0 ∧
      (∀ i ∈ ns.take ii, q.2 i = some (rank (ns.take ii) i)) ∧ ∀ i, i ∉ ns.take ii → q.2 i = none)
    ⟨Pre.nil (by simp), Pre.nil (by simp), by simp, by simp, by simp⟩ (fun ii hii q hq => by
      obtain ⟨k1, k2, k3, k4, k5⟩ := hq
      have hmem : ns[ii] ∈ ns := List.getElem_mem hii
      have he := hent _ hmem
      have htl : (ns.take ii).length = ii := by rw [List.length_take]; omega
      have htake : ns.take (ii + 1) = ns.take ii ++ [ns[ii]] := by rw [List.take_add_one, List.getElem?_eq_getElem hii]; rfl
      have hd' : (ns.take (ii + 1)).Nodup := hnd.sublist (List.take_sublist _ _)
      rw [htake] at hd' ⊢
      have hnot : ns[ii] ∉ ns.take ii := by
        intro h
        rw [List.nodup_append] at hd'
        exact hd'.2.2 _ h _ (by simp) rfl
      obtain ⟨b1, a1, c1⟩ := k1.wr (v := ns[ii]) (by omega)
      obtain ⟨b2, a2, c2⟩ := k2.wr (v := species mt A ns[ii]) (by rw [List.length_map]; omega)
      rw [htl] at a1
      rw [List.length_map, htl] at a2
      obtain ⟨nn', e1, e2⟩ := foldO_inv (l := nbrs A L rc ns[ii]) (s := q.1.nn) (body := fun _ nn => ad nn ii 1)
        (fun js nn => nn = (ns.take ii).map (fun i => (nbrs A L rc i).length) ++ (js.length :: List.replicate (ns.length - (ii + 1)) 0))
        (by rw [k3, show ns.length - ii = (ns.length - (ii + 1)) + 1 by omega, List.replicate_succ]; rfl)
        (fun js j _ _ nn hnn => by
          refine ⟨_, ?_, rfl⟩
          subst hnn
          unfold ad md
          rw [List.getElem?_append_right (by simp), List.length_map, htl]
          rw [show ii - ii = 0 by omega]
          simp [List.set_append_right, min_eq_left hii.le])
      refine ⟨_, by
        unfold nodeBody
        dsimp only
        rw [List.getElem?_eq_getElem hii]
        simp only [Option.bind_eq_bind, Option.bind_some, a1, maceType_eq hA he.lt, a2]
        rw [neighLoop_eq hA he, e1]
        rfl, c1, by rw [List.map_append]; exact c2, by rw [e2, List.map_append]; simp only [List.append_assoc]; rfl, fun i h => ?_,
        fun i h => ?_⟩
      · by_cases e : i = ns[ii]
        · subst e
          show Function.update _ _ _ _ = _
          rw [Function.update_self]
          unfold rank
          rw [List.idxOf_append_of_notMem hnot, htl]
          simp
        · have hmem : i ∈ ns.take ii := by
            rcases List.mem_append.mp h with h | h
            · exact h
            · exact absurd (by simpa using h) e
          show Function.update _ _ _ _ = _
          rw [Function.update_of_ne e, k4 i hmem]
          unfold rank
          rw [List.idxOf_append_of_mem hmem]
      · have h1 : i ≠ ns[ii] := fun e => h (List.mem_append_right _ (by simp [e]))
        have h2 : i ∉ ns.take ii := fun e => h (List.mem_append_left _ e)
        show Function.update _ _ _ _ = _
        rw [Function.update_of_ne h1, k5 i h2])
  rw [List.take_length] at h2 h3 h4 h5 h6
  refine ⟨q.1, q.2, h1, ⟨h2, h3, ?_⟩, h5, h6⟩
  rw [h4]
  simp [Pre]

theorem edgesNoMpi_spec (hA : AtomsOk A mt nT) {ns : List ℕ} {nG : ℕ} (hn : ns.length = L.inum + nG)
    (hent : ∀ i ∈ ns, EntryOk A L i) (m : ℕ → Option ℕ) (ixOf : ℕ → ℕ) (hm : ∀ j, iiGet m j = ixOf j)
    (hw : NodesFilled A mt ns.length ns (ns.map (fun i => (nbrs A L rc i).length)) w) :
    ∃ w', edgesNoMpi A L (rc * rc) mt nG w m = some w' ∧
      NodesFilled A mt ns.length ns (ns.map (fun i => (nbrs A L rc i).length)) w' ∧
      EdgesFilled A mt (fun j => j) ixOf true (bonds A L rc ns).length (bonds A L rc ns) w' := by
  have hnn : w.nn = ns.map (fun i => (nbrs A L rc i).length) := hw.nn.done (by simp)
  have hnode : w.nodeI = ns := hw.nodeI.done rfl
  have hget : ∀ ii < ns.length, w.nn[ii]? = some (nthN w.nn ii) := fun ii h => get_nthN (by rw [hnn]; simpa using h)
  have hE : (∑ i ∈ Finset.range L.inum, nthN w.nn i) + (∑ i ∈ Finset.range nG, nthN w.nn (L.inum + i))
      = (bonds A L rc ns).length := by
    rw [← Finset.sum_range_add, ← hn, ← bonds_nn, ← hnn]
    have : ∀ k, ∑ i ∈ Finset.range k, nthN w.nn i = (w.nn.take k).sum := by
      intro k
      induction k with
      | zero => simp
      | succ k ih =>
        rw [Finset.sum_range_succ, ih, List.take_add_one, List.sum_append]
        congr 1
        unfold nthN
        cases w.nn[k]? <;> simp
    exact this _
  unfold edgesNoMpi
  rw [sumO_eq (fun ii h => hget ii (by omega)), sumO_eq (f := fun ii => w.nn[L.inum + ii]?) (fun ii h => hget (L.inum + ii) (by omega))]
  simp only [Option.bind_eq_bind, Option.bind_some]
  rw [hE, ← hn]
  obtain ⟨q, h1, h2, h3, h4⟩ := loop_inv (n := ns.length)
    (s := ((0 : ℕ), ({ w with
      neighJ := resize w.neighJ (bonds A L rc ns).length
      idx := resize w.idx (bonds A L rc ns).length
      ntypes := resize w.ntypes (bonds A L rc ns).length
      xyz := resize w.xyz (3 * (bonds A L rc ns).length)
      r := resize w.r (bonds A L rc ns).length } : Work)))
    (body := fun ii (q : ℕ × Work) => (q.2.nodeI[ii]?).bind (fun i =>
      neighLoop A L (rc * rc) i (fillEdge A mt (fun j => some (j, some (iiGet m j)))) q))
    (fun ii q => q.1 = (bonds A L rc (ns.take ii)).length ∧
      NodesFilled A mt ns.length ns (ns.map (fun i => (nbrs A L rc i).length)) q.2 ∧
      EdgesFilled A mt (fun j => j) ixOf true (bonds A L rc ns).length (bonds A L rc (ns.take ii)) q.2)
    ⟨by simp [bonds], ⟨hw.1, hw.2, hw.3⟩, ⟨Pre.nil (by simp), fun _ => Pre.nil (by simp), Pre.nil (by simp), Pre.nil (by simp),
      Pre.nil (by simp)⟩⟩ (fun ii hii q hq => by
      obtain ⟨q1, w⟩ := q
      obtain ⟨k1, k2, k3⟩ := hq
      simp only at k1 k2 k3
      subst k1
      have hmem : ns[ii] ∈ ns := List.getElem_mem hii
      have he := hent _ hmem
      have htake : ns.take (ii + 1) = ns.take ii ++ [ns[ii]] := by rw [List.take_add_one, List.getElem?_eq_getElem hii]; rfl
      have hno : w.nodeI = ns := k2.nodeI.done rfl
      obtain ⟨q', e1, e2, e3, e4⟩ := foldO_inv (l := nbrs A L rc ns[ii])
        (s := ((bonds A L rc (ns.take ii)).length, w))
        (body := fun j => fillEdge A mt (fun j => some (j, some (iiGet m j))) j (disp A ns[ii] j 0) (disp A ns[ii] j 1)
          (disp A ns[ii] j 2) (d2 A ns[ii] j))
        (fun js q => q.1 = (bonds A L rc (ns.take ii) ++ js.map (fun j => (ns[ii], j))).length ∧
          NodesFilled A mt ns.length ns (ns.map (fun i => (nbrs A L rc i).length)) q.2 ∧
          EdgesFilled A mt (fun j => j) ixOf true (bonds A L rc ns).length
            (bonds A L rc (ns.take ii) ++ js.map (fun j => (ns[ii], j))) q.2)
        ⟨by simp, k2, by simpa using k3⟩ (fun js j hj hpre q hq => by
          obtain ⟨q1, w⟩ := q
          obtain ⟨k1, k2, k3⟩ := hq
          simp only at k1 k2 k3
          subst k1
          have hlt : (bonds A L rc (ns.take ii) ++ js.map (fun j => (ns[ii], j))).length < (bonds A L rc ns).length := by
            have h1 : (bonds A L rc (ns.take (ii + 1))).length ≤ (bonds A L rc ns).length := by
              conv_rhs => rw [← List.take_append_drop (ii + 1) ns]
              rw [bonds_append, List.length_append]; omega
            rw [htake, bonds_append, List.length_append] at h1
            have h2 := hpre.length_le
            simp only [List.length_append, List.length_map, List.length_singleton] at h2 ⊢
            have h3 : (bonds A L rc [ns[ii]]).length = (nbrs A L rc ns[ii]).length := by simp [bonds]
            omega
          obtain ⟨w', f1, f2, f3, f4, f5⟩ := fillEdge_spec (i := ns[ii]) (jOf := fun j => j) (ixOf := ixOf) (wi := true)
            (look := fun j => some (j, some (iiGet m j))) hA (nbrs_lt he hj) (by simp [hm]) k3 hlt
          refine ⟨_, f1, ?_, ?_, ?_⟩
          · simp; ring
          · exact ⟨by rw [f3]; exact k2.nodeI, by rw [f5]; exact k2.types, by rw [f4]; exact k2.nn⟩
          · simpa using f2)
      refine ⟨q', ?_, ?_, e3, ?_⟩
      · rw [hno, List.getElem?_eq_getElem hii, Option.bind_some, neighLoop_eq hA he]
        exact e1
      · rw [e2, htake, bonds_append]; simp [bonds]
      · rw [htake, bonds_append]; simpa [bonds] using e4)
  rw [List.take_length] at h4
  refine ⟨q.2, ?_, h3, h4⟩
  rw [h1]; rfl

theorem buildNoMpi_spec (hA : AtomsOk A mt nT) (hL : ListOk A L) (hH : ∀ j ∈ halo A L rc, EntryOk A L j) (old : List ℕ) (w : Work) :
    ∃ w', buildNoMpi rc mt A L old w = some ((halo A L rc).length, w') ∧ w'.nodeI = allNodes A L rc ∧
      w'.neighJ = (bonds A L rc (allNodes A L rc)).map (fun p => p.2) ∧ ∃ ix : ℕ → ℕ,
        (∀ j ∈ allNodes A L rc, ix j = rank (allNodes A L rc) j) ∧ (∀ j, j ∉ allNodes A L rc → ix j = 0) ∧
        w'.graph (allNodes A L rc).length = (sysOf A L rc mt (allNodes A L rc) ix).graph (vecs A (bonds A L rc (allNodes A L rc))) := by
  obtain ⟨g, g1, g2⟩ := ghosts_spec (rc := rc) hA hL old
  obtain ⟨w1, m, n1, n2, n3, n4⟩ := nodesNoMpi_spec (w := w) hA hL hH
  have hent : ∀ i ∈ allNodes A L rc, EntryOk A L i := by
    intro i hi
    rcases List.mem_append.mp hi with h | h
    · exact hL.entry i h
    · exact hH i h
  have hlen : (allNodes A L rc).length = L.inum + (halo A L rc).length := by
    rw [allNodes, List.length_append, centres_length hL]
  obtain ⟨w2, e1, e2, e3⟩ := edgesNoMpi_spec hA hlen hent m (fun j => iiGet m j) (fun _ => rfl) n2
  obtain ⟨k1, k2, k3, k4⟩ := graph_of_filled rfl e2 e3
  refine ⟨w2, ?_, k1, k2, fun j => iiGet m j, fun j hj => ?_, fun j hj => ?_, ?_⟩
  · unfold buildNoMpi
    simp only [g1, g2, n1, e1, Option.bind_eq_bind, Option.bind_some, Option.pure_def]
  · show iiGet m j = _
    rw [iiGet, n3 j hj]; rfl
  · show iiGet m j = _
    rw [iiGet, n4 j hj]; rfl
  · rw [← k3, ← k4 rfl]; rfl

end Verif.Lammps
