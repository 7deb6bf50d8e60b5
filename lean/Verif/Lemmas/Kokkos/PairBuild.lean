import Verif.Model.Kokkos.Pair
import Verif.Lemmas.Kokkos.Basic
import Verif.Lemmas.Lammps.Single

/-! # Graph building in the Kokkos pair style -/

namespace Verif.Kokkos.Pair
open Verif.Par Verif.Par.Prog Verif.Lammps Verif.MACE Verif.Spec

section lists
variable {α : Type}

theorem get_one {v : View α} {n : ℕ} (he : v.ext = [n]) {i : ℕ} (hi : i < n) : v.get [i] = v.data[i]? := by
  unfold View.get
  rw [he, flat_one hi, Option.bind_some]

/-- Content of a one-dimensional view. -/
theorem data_eq {v : View α} {n : ℕ} {F : ℕ → α} (hv : v.Ok) (he : v.ext = [n]) (h : ∀ i < n, v.get [i] = some (F i)) : v.data = tab n F := by
  rw [eq_tab_iff]
  refine ⟨?_, fun i hi => by rw [← get_one he hi]; exact h i hi⟩
  unfold View.Ok at hv
  rw [hv, he]
  simp

theorem growL_len [Zero α] (l : List α) (n : ℕ) : n ≤ (growL l n).length := by
  unfold growL
  split
  · simp
  · omega

theorem sub_ok {l : List α} {n : ℕ} (h : n ≤ l.length) : (sub l n).Ok := by simp [View.Ok, sub, h]

theorem back_take {l : List α} {v : View α} {n : ℕ} (h : v.data.length = n) : (back l v).take n = v.data := by
  unfold back
  rw [← h, List.take_left']
  rfl

theorem back_get {l : List α} {v : View α} {i : ℕ} (h : i < v.data.length) : (back l v)[i]? = v.data[i]? := by
  unfold back
  rw [List.getElem?_append_left h]

theorem take_get' {l m : List α} {n i : ℕ} (h : l.take n = m) (hi : i < n) : l[i]? = m[i]? := by
  rw [← h, List.getElem?_take_of_lt hi]

end lists

/-- A reduction without writes. -/
theorem reduceTo_eq {K : Type} [AddCommMonoid K] (L : Launcher K) {n : ℕ} {t : ℕ → Prog Unit K} {x : ℕ → K}
    (ht : ∀ i < n, ∀ E : Unit → List ℕ, Ret E (t i) [x i]) :
    reduceTo L (.par n t (fun vs => .ret [red 0 vs])) = some (∑ i ∈ Finset.range n, x i) := by
  have hr : Ret (fun _ : Unit => [0]) (.par n t (fun vs => .ret [red 0 vs])) [red 0 (tab n (fun i => [x i]))] :=
    Ret.par (W := fun vs => [red 0 vs]) (fun i hi => ht i hi _) (fun vs => Ret.ret _)
  have hok := hr (fun _ => 0)
  obtain ⟨m', h1, -⟩ := hok.2 (fun _ => []) (by simp)
  have ho := outcome_unique hok.1.raceFree (L.legal _ (fun _ : Unit => ([] : List K)))
  unfold reduceTo
  rw [ho, h1, red_tab]
  rfl

variable {A : Atoms} {L : NList} {rc : ℝ} {mt : List ℕ} {nT : ℕ}

theorem posAt_eq (hA : AtomsOk A mt nT) {i : ℕ} (hi : i < A.nlocal + A.nghost) : posAt A i = some (pos A i 0, pos A i 1, pos A i 2) := by
  have hx := hA.x
  unfold posAt pos
  rw [get_nth (l := A.x) (by omega), get_nth (l := A.x) (by omega), get_nth (l := A.x) (by omega)]
  rfl

theorem listed_length {i : ℕ} (hi : EntryOk A L i) : (listed L i).length = nthN L.num i := by
  unfold listed
  rw [List.length_map, List.length_take]
  have := hi.len
  omega

theorem pairAt_eq (hA : AtomsOk A mt nT) {i jj : ℕ} (hi : EntryOk A L i) (hjj : jj < (listed L i).length) :
    pairAt A L i (pos A i 0, pos A i 1, pos A i 2) jj = some ((listed L i)[jj],
      (disp A i (listed L i)[jj] 0, disp A i (listed L i)[jj] 1, disp A i (listed L i)[jj] 2), Lammps.d2 A i (listed L i)[jj]) := by
  have hlen := listed_length hi
  have hfirst : L.first[i]? = some (L.first[i]?.getD []) := by rw [List.getElem?_eq_getElem hi.first]; rfl
  have hl := hi.len
  have hjl : jj < (L.first[i]?.getD []).length := by omega
  have hj : (listed L i)[jj] = neighMask (L.first[i]?.getD [])[jj] := by
    have h : (listed L i)[jj]? = some (neighMask (L.first[i]?.getD [])[jj]) := by
      unfold listed
      rw [List.getElem?_map, List.getElem?_take_of_lt (by omega), List.getElem?_eq_getElem hjl, neighMask_eq]; rfl
    rw [List.getElem?_eq_getElem hjj] at h
    exact Option.some.inj h
  have hlt : neighMask (L.first[i]?.getD [])[jj] < A.nlocal + A.nghost := hj ▸ hi.nb _ (List.getElem_mem hjj)
  unfold pairAt
  rw [hfirst]
  simp only [Option.bind_eq_bind, Option.bind_some]
  rw [List.getElem?_eq_getElem hjl, Option.bind_some, posAt_eq hA hlt, Option.bind_some]
  simp only [hj]
  rfl

open Classical in
/-- The test of the code selects the neighbours. -/
theorem nbrs_filter (i : ℕ) : nbrs A L rc i = (listed L i).filter (fun j => Lammps.d2 A i j < rc * rc) := by
  unfold nbrs
  congr 1
  funext j
  rw [d2_eq, sq]

theorem count_filter (p : ℕ → Prop) [DecidablePred p] (l : List ℕ) :
    ∑ k ∈ Finset.range l.length, (if p (l[k]?.getD 0) then 1 else 0) = (l.filter (fun j => decide (p j))).length := by
  induction l using List.reverseRecOn with
  | nil => rfl
  | append_singleton l a ih =>
    rw [List.length_append, List.length_singleton, Finset.sum_range_succ, List.filter_append, List.length_append, ← ih]
    congr 1
    · refine Finset.sum_congr rfl (fun k hk => ?_)
      rw [List.getElem?_append_left (Finset.mem_range.mp hk)]
    · by_cases h : p a <;> simp [h]

/-- What the first kernel writes. -/
noncomputable def nodeVal (A : Atoms) (L : NList) (rc : ℝ) (mt ns : List ℕ) (b : NodeV) (ii : ℕ) : ℕ :=
  match b with
  | .index => nthN ns ii
  | .type => species mt A (nthN ns ii)
  | .count => (nbrs A L rc (nthN ns ii)).length

theorem nodesK_lc (hA : AtomsOk A mt nT) {ns : List ℕ} {n : ℕ} (hn : ns.length = n) (hns : ∀ i ∈ ns, EntryOk A L i) {node : ℕ → Option ℕ}
    (hnode : ∀ ii < n, node ii = some (nthN ns ii)) (E : NodeV → List ℕ) :
    Lc E (nodesK A L (rc * rc) mt n node E) (ex n (fun ii => {c | c.2 = [ii]}))
      (fun c _ => nodeVal A L rc mt ns c.1 (c.2.headD 0)) := by
  classical
  refine Lc.parFor (fun ii hii => ?_) (fun i hi j hj c h1 h2 => ?_)
  · have hmem : nthN ns ii ∈ ns := by
      unfold nthN
      rw [List.getElem?_eq_getElem (by omega), Option.getD_some]
      exact List.getElem_mem _
    have hi := hns _ hmem
    refine Lc.opt (hnode ii hii) ?_
    refine Lc.frame (D := {(NodeV.index, [ii])} ∪ ({(NodeV.type, [ii])} ∪ {(NodeV.count, [ii])}))
      (q := fun c _ => nodeVal A L rc mt ns c.1 (c.2.headD 0)) (Lc.seqDisj (Lc.put (fun _ => rfl)) (Lc.opt (maceType_eq hA hi.lt) (Lc.seqDisj (Lc.put (fun _ => rfl)) ?_ ?_)) ?_) ?_ ?_ ?_
    · refine Lc.opt (a := ((pos A (nthN ns ii) 0, pos A (nthN ns ii) 1, pos A (nthN ns ii) 2), nthN L.num (nthN ns ii))) ?_ ?_
      · rw [posAt_eq hA hi.lt, get_nthN hi.num]; rfl
      · refine Lc.reduce (V := fun jj => [if Lammps.d2 A (nthN ns ii) ((listed L (nthN ns ii))[jj]?.getD 0) < rc * rc then 1 else 0])
          (Q := fun vs _ _ => red 0 vs) (fun jj hjj => ?_) (fun vs => Lc.put (fun _ => rfl)) (fun c hc x => ?_)
        · have hl : jj < (listed L (nthN ns ii)).length := by rw [listed_length hi]; exact hjj
          refine Ret.opt (pairAt_eq hA hi hl) ?_
          rw [List.getElem?_eq_getElem hl, Option.getD_some]
          exact Ret.ret _
        · rw [Set.mem_singleton_iff.mp hc]
          change (nbrs A L rc (nthN ns ii)).length = _
          rw [red_tab, nbrs_filter, ← listed_length hi, ← count_filter]
          exact Finset.sum_congr rfl (fun k _ => by simp)
    · rintro c rfl h
      simp at h
    · rintro c rfl (h | h) <;> simp at h
    · rintro c (h | h | h) <;> rw [Set.mem_singleton_iff.mp h] <;> rfl
    · intro c _ x; rfl
    · rintro ⟨b, is⟩ hc hn x
      exfalso
      apply hn
      have : is = [ii] := hc
      subst this
      cases b
      · exact Or.inl rfl
      · exact Or.inr (Or.inl rfl)
      · exact Or.inr (Or.inr rfl)
  · have := h1.symm.trans h2
    simpa using this

theorem map_eq_tab {β : Type} {ns : List ℕ} {n : ℕ} (hn : ns.length = n) (g : ℕ → β) : ns.map g = tab n (fun ii => g (nthN ns ii)) := by
  rw [eq_tab_iff]
  refine ⟨by simp [hn], fun i hi => ?_⟩
  rw [List.getElem?_map, List.getElem?_eq_getElem (by omega), nthN, List.getElem?_eq_getElem (by omega)]
  rfl

/-- The first kernel. -/
theorem nodeLaunch_spec (V : PEnv) (hA : AtomsOk A mt nT) {ns : List ℕ} {n : ℕ} (hn : ns.length = n) (hns : ∀ i ∈ ns, EntryOk A L i)
    {node : ℕ → Option ℕ} (hnode : ∀ ii < n, node ii = some (nthN ns ii)) {w : Mem} (l1 : n ≤ w.nodeI.length) (l2 : n ≤ w.types.length)
    (l3 : n ≤ w.nn.length) :
    ∃ w', nodeLaunch V A L (rc * rc) mt n node w = some w' ∧ w'.nodeI.take n = ns ∧ w'.types.take n = ns.map (species mt A) ∧
      w'.nn.take n = ns.map (fun i => (nbrs A L rc i).length) := by
  unfold nodeLaunch
  let vs : NodeV → View ℕ := fun b => match b with
    | .index => sub w.nodeI n
    | .type => sub w.types n
    | .count => sub w.nn n
  have hext : ∀ b, (vs b).ext = [n] := by intro b; cases b <;> rfl
  have hok : ∀ b, (vs b).Ok := by
    intro b
    cases b
    · exact sub_ok l1
    · exact sub_ok l2
    · exact sub_ok l3
  obtain ⟨v, vs', h1, h2, h3, h4, -⟩ := launch_lc V.LN (vs := vs) (fun c => ((vs c.1).get c.2).getD 0)
    (nodesK_lc (rc := rc) hA hn hns hnode _) (by
      rintro ⟨b, is⟩ ⟨ii, hii, hc⟩
      have : is = [ii] := hc
      subst this
      obtain ⟨x, hx⟩ := View.exists_get (hok b) (is := [ii]) (by rw [hext]; exact flat_one hii)
      dsimp only
      rw [hx]; rfl)
  have hd : ∀ b, (vs' b).data = tab n (nodeVal A L rc mt ns b) := fun b =>
    data_eq (h3 b (hok b)) ((h2 b).trans (hext b)) (fun i hi => h4 (b, [i]) ⟨i, hi, rfl⟩)
  have hl : ∀ b, (vs' b).data.length = n := fun b => by rw [hd]; simp
  refine ⟨{ w with nodeI := back w.nodeI (vs' .index), types := back w.types (vs' .type), nn := back w.nn (vs' .count) }, ?_, ?_, ?_, ?_⟩
  rotate_left
  · exact (back_take (hl .index)).trans ((hd _).trans (by
      have := map_eq_tab hn (fun i => i); rw [List.map_id'] at this; exact this.symm))
  · exact (back_take (hl .type)).trans ((hd _).trans (map_eq_tab hn (species mt A)).symm)
  · exact (back_take (hl .count)).trans ((hd _).trans (map_eq_tab hn (fun i => (nbrs A L rc i).length)).symm)
  · change (V.LN.launch (nodesK A L (rc * rc) mt n node (fun b => (vs b).ext)) vs).bind _ = _
    rw [h1]
    rfl

/-- The node views. -/
theorem nodeViews_spec (V : PEnv) (hA : AtomsOk A mt nT) {ns : List ℕ} {n : ℕ} (hn : ns.length = n) (hns : ∀ i ∈ ns, EntryOk A L i)
    {node : ℕ → Option ℕ} (hnode : ∀ ii < n, node ii = some (nthN ns ii)) (w : Mem) :
    ∃ w', nodeViews V A L (rc * rc) mt n node w = some w' ∧ w'.nodeI.take n = ns ∧ w'.types.take n = ns.map (species mt A) ∧
      w'.nn.take n = ns.map (fun i => (nbrs A L rc i).length) :=
  nodeLaunch_spec V hA hn hns hnode (growL_len _ _) (growL_len _ _) (by simpa using growL_len w.nn n)

/-- "count_edges". -/
theorem count_spec (LN : Launcher ℕ) {nn : List ℕ} {a n : ℕ} (h : a + n ≤ nn.length) :
    reduceTo LN (countK nn a n) = some ((nn.drop a).take n).sum := by
  unfold countK
  rw [reduceTo_eq LN (x := fun ii => nthN nn (a + ii)) (fun i hi E => Ret.opt (get_nthN (by omega)) (Ret.ret _))]
  congr 1
  clear LN
  induction n with
  | zero => simp
  | succ n ih =>
    rw [Finset.sum_range_succ, ih (by omega), List.take_add_one, List.getElem?_drop, get_nthN (by omega)]
    simp

/-! ## Edges -/

/-- Cells of edge `e`. -/
def edgeCells (e : ℕ) : Set (EdgeV × List ℕ) :=
  {c | c = (.index, [e]) ∨ c = (.type, [e]) ∨ c = (.xyz, [3 * e]) ∨ c = (.xyz, [3 * e + 1]) ∨ c = (.xyz, [3 * e + 2]) ∨ c = (.r, [e])}

theorem edgeCells_inj {e e' : ℕ} {c : EdgeV × List ℕ} (h : c ∈ edgeCells e) (h' : c ∈ edgeCells e') : e = e' := by
  rcases h with rfl | rfl | rfl | rfl | rfl | rfl <;>
    rcases h' with h' | h' | h' | h' | h' | h' <;> simp at h' <;> omega

/-- What the second kernel writes. -/
noncomputable def edgeVal (A : Atoms) (mt : List ℕ) (jOf : ℕ → ℕ) (ps : List (ℕ × ℕ)) (b : EdgeV) (p : ℕ) : ℕ × ℝ :=
  match b with
  | .index => (jOf (ps[p]?.getD (0, 0)).2, 0)
  | .type => (species mt A (ps[p]?.getD (0, 0)).2, 0)
  | .xyz => (0, vecs A ps (p / 3) (p % 3))
  | .r => (0, Real.sqrt (Lammps.d2 A (ps[p]?.getD (0, 0)).1 (ps[p]?.getD (0, 0)).2))

section edges
variable {jOf : ℕ → ℕ} {ps : List (ℕ × ℕ)} {E : EdgeV → List ℕ}

theorem edgeK_lc (hA : AtomsOk A mt nT) {i j e : ℕ} (hj : j < A.nlocal + A.nghost) (he : ps[e]? = some (i, j)) :
    Lc E (edgeK E A mt e (jOf j) j (disp A i j 0, disp A i j 1, disp A i j 2) (Lammps.d2 A i j)) (edgeCells e)
      (fun c _ => edgeVal A mt jOf ps c.1 (c.2.headD 0)) := by
  have hv : ∀ c < 3, vecs A ps ((3 * e + c) / 3) ((3 * e + c) % 3) = disp A i j c := by
    intro c hc
    rw [show (3 * e + c) / 3 = e by omega, show (3 * e + c) % 3 = c by omega]
    unfold vecs
    rw [he]; rfl
  unfold edgeK
  refine Lc.frame (D := {(EdgeV.index, [e])} ∪ ({(EdgeV.type, [e])} ∪ ({(EdgeV.xyz, [3 * e])} ∪ ({(EdgeV.xyz, [3 * e + 1])} ∪
    ({(EdgeV.xyz, [3 * e + 2])} ∪ {(EdgeV.r, [e])}))))) (Lc.seqDisj (Lc.put (fun _ => ?_)) (Lc.opt (maceType_eq hA hj)
      (Lc.seqDisj (Lc.put (fun _ => ?_)) (Lc.seqDisj (Lc.put (fun _ => ?_)) (Lc.seqDisj (Lc.put (fun _ => ?_)) (Lc.seqDisj
        (Lc.put (fun _ => ?_)) (Lc.put (fun _ => ?_)) ?_) ?_) ?_) ?_)) ?_) ?_ (fun _ _ _ => rfl) ?_
  · simp [edgeVal, he]
  · simp [edgeVal, he]
  · change ((0 : ℕ), vecs A ps ((3 * e) / 3) ((3 * e) % 3)) = _
    rw [show vecs A ps ((3 * e) / 3) ((3 * e) % 3) = disp A i j 0 from hv 0 (by norm_num)]
  · change ((0 : ℕ), vecs A ps ((3 * e + 1) / 3) ((3 * e + 1) % 3)) = _
    rw [hv 1 (by norm_num)]
  · change ((0 : ℕ), vecs A ps ((3 * e + 2) / 3) ((3 * e + 2) % 3)) = _
    rw [hv 2 (by norm_num)]
  · simp [edgeVal, he]
  · rintro c rfl h; simp at h
  · rintro c rfl h; simp at h
  · rintro c rfl h; simp at h
  · rintro c rfl h; simp at h
  · rintro c rfl h; simp at h
  · rintro c (h | h | h | h | h | h) <;> rw [Set.mem_singleton_iff.mp h] <;> simp [edgeCells]
  · intro c hc hn x
    exfalso
    apply hn
    rcases hc with h | h | h | h | h | h <;> simp [h]

/-- The loop over the neighbours from `jj` on. -/
theorem edgeLoop_lc (hA : AtomsOk A mt nT) {i : ℕ} (hi : EntryOk A L i) {look : ℕ → Option ℕ} :
    ∀ (m jj ij : ℕ), jj + m = (listed L i).length →
      (∀ k j, (((listed L i).drop jj).filter (fun j => open Classical in decide (Lammps.d2 A i j < rc * rc)))[k]? = some j →
        look j = some (jOf j) ∧ ps[ij + k]? = some (i, j)) →
      Lc E (edgeLoop E A L (rc * rc) mt look i (pos A i 0, pos A i 1, pos A i 2) m jj ij)
        {c | ∃ k < (((listed L i).drop jj).filter (fun j => open Classical in decide (Lammps.d2 A i j < rc * rc))).length, c ∈ edgeCells (ij + k)}
        (fun c _ => edgeVal A mt jOf ps c.1 (c.2.headD 0)) := by
  classical
  intro m
  induction m with
  | zero =>
    intro jj ij hm hk
    refine Lc.ret (fun c hc => ?_)
    obtain ⟨k, h, -⟩ := hc
    rw [List.drop_eq_nil_of_le (by omega)] at h
    simp at h
  | succ m ih =>
    intro jj ij hm hk
    have hjj : jj < (listed L i).length := by omega
    have hdrop : (listed L i).drop jj = (listed L i)[jj] :: (listed L i).drop (jj + 1) := List.drop_eq_getElem_cons hjj
    refine Lc.opt (pairAt_eq hA hi hjj) ?_
    dsimp only
    by_cases h : Lammps.d2 A i (listed L i)[jj] < rc * rc
    · rw [if_pos h]
      rw [hdrop, List.filter_cons_of_pos (by simpa using h)] at hk ⊢
      obtain ⟨l1, l2⟩ := hk 0 _ rfl
      refine Lc.opt l1 ?_
      refine Lc.frame (D := edgeCells ij ∪ _) (Lc.seqDisj (edgeK_lc hA (hi.nb _ (List.getElem_mem hjj)) l2)
        (ih (jj + 1) (ij + 1) (by omega) (fun k j hkj => ?_)) ?_) ?_ (fun _ _ _ => rfl) ?_
      · have := hk (k + 1) j (by simpa using hkj)
        rw [show ij + 1 + k = ij + (k + 1) by ring]
        exact this
      · rintro c hc ⟨k, hk, hck⟩
        have := edgeCells_inj hc hck
        omega
      · rintro c (hc | ⟨k, hk, hck⟩)
        · exact ⟨0, by simp, hc⟩
        · exact ⟨k + 1, by simpa using hk, by rw [show ij + (k + 1) = ij + 1 + k by ring]; exact hck⟩
      · rintro c ⟨k, hk, hck⟩ hn x
        exfalso
        apply hn
        cases k with
        | zero => exact Or.inl hck
        | succ k => exact Or.inr ⟨k, by simpa using hk, by rw [show ij + 1 + k = ij + (k + 1) by ring]; exact hck⟩
    · rw [if_neg h]
      rw [hdrop, List.filter_cons_of_neg (by simpa using h)] at hk ⊢
      exact ih (jj + 1) ij (by omega) hk

theorem edgesK_lc (hA : AtomsOk A mt nT) {ns : List ℕ} {n : ℕ} (hn : ns.length = n) (hns : ∀ i ∈ ns, EntryOk A L i) {node : ℕ → Option ℕ}
    (hnode : ∀ ii < n, node ii = some (nthN ns ii)) {fn : List ℕ}
    (hfn : ∀ ii < n, fn[ii]? = some (off (ns.map (fun i => (nbrs A L rc i).length)) ii)) {look : ℕ → Option ℕ}
    (hlook : ∀ i ∈ ns, ∀ j ∈ nbrs A L rc i, look j = some (jOf j)) :
    Lc E (edgesK A L (rc * rc) mt n node fn look E) (ex (bonds A L rc ns).length edgeCells)
      (fun c _ => edgeVal A mt jOf (bonds A L rc ns) c.1 (c.2.headD 0)) := by
  have hget : ∀ ii < n, (ns.map (fun i => (nbrs A L rc i).length))[ii]? = some (nbrs A L rc (nthN ns ii)).length := fun ii hii => by
    rw [List.getElem?_map, List.getElem?_eq_getElem (by omega), nthN, List.getElem?_eq_getElem (by omega)]; rfl
  have hE : off (ns.map (fun i => (nbrs A L rc i).length)) n = (bonds A L rc ns).length := by
    rw [← hn]; exact bonds_nn ns
  refine Lc.frame (D := ex n (fun ii => {c | ∃ k < (nbrs A L rc (nthN ns ii)).length,
    c ∈ edgeCells (off (ns.map (fun i => (nbrs A L rc i).length)) ii + k)})) (Lc.parFor (fun ii hii => ?_) (fun i hi j hj c h1 h2 => ?_))
    ?_ (fun _ _ _ => rfl) ?_
  · have hmem : nthN ns ii ∈ ns := by
      unfold nthN
      rw [List.getElem?_eq_getElem (by omega), Option.getD_some]
      exact List.getElem_mem _
    have hi := hns _ hmem
    refine Lc.opt (hnode ii hii) ?_
    refine Lc.opt (a := ((pos A (nthN ns ii) 0, pos A (nthN ns ii) 1, pos A (nthN ns ii) 2),
      off (ns.map (fun i => (nbrs A L rc i).length)) ii, nthN L.num (nthN ns ii))) ?_ ?_
    · rw [posAt_eq hA hi.lt, get_nthN hi.num, hfn ii hii]; rfl
    · have := edgeLoop_lc (rc := rc) (E := E) (jOf := jOf) (ps := bonds A L rc ns) (look := look) hA hi (nthN L.num (nthN ns ii)) 0
        (off (ns.map (fun i => (nbrs A L rc i).length)) ii) (by rw [listed_length hi]; omega) (fun k j hkj => ?_)
      · rw [List.drop_zero, ← nbrs_filter] at this
        exact this
      · rw [List.drop_zero, ← nbrs_filter] at hkj
        obtain ⟨hk, hkj'⟩ := List.getElem?_eq_some_iff.mp hkj
        refine ⟨hlook _ hmem j (List.mem_of_getElem? hkj), ?_⟩
        have hns' : ns[ii]'(by omega) = nthN ns ii := by
          unfold nthN; rw [List.getElem?_eq_getElem (by omega)]; rfl
        have := bonds_get (A := A) (L := L) (rc := rc) (ns := ns) (ii := ii) (k := k) (by omega) (by rw [hns']; exact hk)
        rw [this]
        simp only [hns', hkj']
  · obtain ⟨k, hk, hc⟩ := h1
    obtain ⟨k', hk', hc'⟩ := h2
    have heq := edgeCells_inj hc hc'
    by_contra hne
    rcases Nat.lt_or_gt_of_ne hne with h | h
    · have := off_add_lt h (hget i hi) hk
      omega
    · have := off_add_lt h (hget j hj) hk'
      omega
  · rintro c ⟨ii, hii, k, hk, hc⟩
    refine ⟨_, ?_, hc⟩
    rw [← hE]
    exact off_add_lt hii (hget ii hii) hk
  · rintro c ⟨e, he, hc⟩ hn' x
    exfalso
    apply hn'
    rw [← hE] at he
    obtain ⟨ii, k, hii, hk, rfl⟩ : ∃ ii k, ii < n ∧ k < (nbrs A L rc (nthN ns ii)).length ∧
        e = off (ns.map (fun i => (nbrs A L rc i).length)) ii + k := by
      clear hn' hc hfn hnode
      have : ∀ m ≤ n, e < off (ns.map (fun i => (nbrs A L rc i).length)) m → ∃ ii k, ii < m ∧
          k < (nbrs A L rc (nthN ns ii)).length ∧ e = off (ns.map (fun i => (nbrs A L rc i).length)) ii + k := by
        intro m
        induction m with
        | zero => intro _ h; rw [off_zero] at h; omega
        | succ m ih =>
          intro hm h
          by_cases h' : e < off (ns.map (fun i => (nbrs A L rc i).length)) m
          · obtain ⟨ii, k, h1, h2⟩ := ih (by omega) h'
            exact ⟨ii, k, by omega, h2⟩
          · rw [off_succ (hget m (by omega))] at h
            exact ⟨m, e - off (ns.map (fun i => (nbrs A L rc i).length)) m, by omega, by omega, by omega⟩
      exact this n le_rfl he
    exact ⟨ii, hii, k, hk, hc⟩

/-- The edge views. -/
theorem edgeViews_spec (V : PEnv) (hA : AtomsOk A mt nT) {ns : List ℕ} {n : ℕ} (hn : ns.length = n) (hns : ∀ i ∈ ns, EntryOk A L i)
    {node : ℕ → Option ℕ} (hnode : ∀ ii < n, node ii = some (nthN ns ii)) {w : Mem}
    (hfn : ∀ ii < n, w.fn[ii]? = some (off (ns.map (fun i => (nbrs A L rc i).length)) ii)) {look : ℕ → Option ℕ}
    (hlook : ∀ i ∈ ns, ∀ j ∈ nbrs A L rc i, look j = some (jOf j)) {e : ℕ} (he : e = (bonds A L rc ns).length) :
    ∃ w', edgeViews V A L (rc * rc) mt n e node look w = some w' ∧
      w'.nodeI = w.nodeI ∧ w'.types = w.types ∧ w'.nn = w.nn ∧ w'.fn = w.fn ∧
      w'.idx.take e = (bonds A L rc ns).map (fun p => jOf p.2) ∧ w'.ntypes.take e = (bonds A L rc ns).map (fun p => species mt A p.2) ∧
      w'.xyz.take (3 * e) = tab2 e 3 (vecs A (bonds A L rc ns)) ∧
      w'.r.take e = (bonds A L rc ns).map (fun p => Real.sqrt (Lammps.d2 A p.1 p.2)) := by
  unfold edgeViews
  let vs : EdgeV → View (ℕ × ℝ) := fun b => match b with
    | .index => sub ((growL w.idx e).map (fun k => (k, 0))) e
    | .type => sub ((growL w.ntypes e).map (fun k => (k, 0))) e
    | .xyz => sub ((growL w.xyz (3 * e)).map (fun x => (0, x))) (3 * e)
    | .r => sub ((growL w.r e).map (fun x => (0, x))) e
  let sz : EdgeV → ℕ := fun b => match b with | .xyz => 3 * e | _ => e
  have hext : ∀ b, (vs b).ext = [sz b] := by intro b; cases b <;> rfl
  have hok : ∀ b, (vs b).Ok := by
    intro b
    cases b <;> exact sub_ok (by rw [List.length_map]; exact growL_len _ _)
  have hcell : ∀ b, ∀ p < sz b, (b, [p]) ∈ ex e edgeCells := by
    intro b p hp
    cases b
    · exact ⟨p, hp, Or.inl rfl⟩
    · exact ⟨p, hp, Or.inr (Or.inl rfl)⟩
    · have hp' : p < 3 * e := hp
      refine ⟨p / 3, by omega, ?_⟩
      have : p = 3 * (p / 3) ∨ p = 3 * (p / 3) + 1 ∨ p = 3 * (p / 3) + 2 := by omega
      rcases this with h | h | h
      · exact Or.inr (Or.inr (Or.inl (by rw [← h])))
      · exact Or.inr (Or.inr (Or.inr (Or.inl (by rw [← h]))))
      · exact Or.inr (Or.inr (Or.inr (Or.inr (Or.inl (by rw [← h])))))
    · exact ⟨p, hp, Or.inr (Or.inr (Or.inr (Or.inr (Or.inr rfl))))⟩
  have hin : ∀ c ∈ ex e edgeCells, ∃ p, c.2 = [p] ∧ p < sz c.1 := by
    rintro c ⟨k, hk, h | h | h | h | h | h⟩ <;> subst h
    · exact ⟨_, rfl, hk⟩
    · exact ⟨_, rfl, hk⟩
    · exact ⟨_, rfl, show 3 * k < 3 * e by omega⟩
    · exact ⟨_, rfl, show 3 * k + 1 < 3 * e by omega⟩
    · exact ⟨_, rfl, show 3 * k + 2 < 3 * e by omega⟩
    · exact ⟨_, rfl, hk⟩
  have hlc := edgesK_lc (rc := rc) (jOf := jOf) (E := fun b => (vs b).ext) hA hn hns hnode hfn hlook
  rw [← he] at hlc
  obtain ⟨v, vs', h1, h2, h3, h4, -⟩ := launch_lc V.LX (vs := vs) (fun c => ((vs c.1).get c.2).getD 0) hlc (by
      intro c hc
      obtain ⟨p, e1, hp⟩ := hin c hc
      rw [e1]
      obtain ⟨x, hx⟩ := View.exists_get (hok c.1) (is := [p]) (by rw [hext]; exact flat_one hp)
      rw [hx]; rfl)
  have hd : ∀ b, (vs' b).data = tab (sz b) (edgeVal A mt jOf (bonds A L rc ns) b) := fun b =>
    data_eq (h3 b (hok b)) ((h2 b).trans (hext b)) (fun i hi => h4 (b, [i]) (hcell b i hi))
  have hmap : ∀ {β : Type} (g : ℕ × ℕ → β), (bonds A L rc ns).map g = tab e (fun p => g ((bonds A L rc ns)[p]?.getD (0, 0))) := by
    intro β g
    rw [eq_tab_iff]
    refine ⟨by simp [he], fun p hp => ?_⟩
    rw [List.getElem?_map, List.getElem?_eq_getElem (by omega)]; rfl
  have htm : ∀ {α β : Type} (g : α → β) (m : ℕ) (F : ℕ → α), (tab m F).map g = tab m (fun p => g (F p)) := by
    intro α β g m F
    unfold tab
    rw [List.map_map]; rfl
  refine ⟨{ w with
    idx := back (growL w.idx e) ⟨(vs' .index).ext, (vs' .index).data.map Prod.fst⟩
    ntypes := back (growL w.ntypes e) ⟨(vs' .type).ext, (vs' .type).data.map Prod.fst⟩
    xyz := back (growL w.xyz (3 * e)) ⟨(vs' .xyz).ext, (vs' .xyz).data.map Prod.snd⟩
    r := back (growL w.r e) ⟨(vs' .r).ext, (vs' .r).data.map Prod.snd⟩ }, ?_, ?_, ?_, ?_, ?_, ?_, ?_, ?_, ?_⟩
  rotate_left
  · rfl
  · rfl
  · rfl
  · rfl
  · refine (back_take ?_).trans ?_
    · simp [hd, sz]
    · change (vs' .index).data.map Prod.fst = _
      rw [hd, htm, hmap]; rfl
  · refine (back_take ?_).trans ?_
    · simp [hd, sz]
    · change (vs' .type).data.map Prod.fst = _
      rw [hd, htm, hmap]; rfl
  · refine (back_take ?_).trans ?_
    · simp [hd, sz]
    · change (vs' .xyz).data.map Prod.snd = _
      rw [hd, htm]
      unfold tab2
      rw [mul_comm e 3]; rfl
  · refine (back_take ?_).trans ?_
    · simp [hd, sz]
    · change (vs' .r).data.map Prod.snd = _
      rw [hd, htm, hmap]; rfl
  · change (V.LX.launch (edgesK A L (rc * rc) mt n node w.fn look (fun b => (vs b).ext)) vs).bind _ = _
    rw [h1]
    rfl

end edges

/-- The first-neighbour scan. -/
theorem scanFirst_spec (V : PEnv) {n : ℕ} {w : Mem} (h : n ≤ w.nn.length) :
    ∃ w', scanFirst V n w = some w' ∧ w' = { w with fn := w'.fn } ∧ ∀ ii < n, w'.fn[ii]? = some (off w.nn ii) := by
  unfold scanFirst
  rw [firstNeigh_spec V.toEnv h]
  refine ⟨_, rfl, rfl, fun ii hii => ?_⟩
  rw [back_get (by simpa using hii), getElem?_tab_lt hii]

end Verif.Kokkos.Pair
