import Verif.Lemmas.Kokkos.PairSingle
import Verif.Lemmas.Kokkos.PartEval
import Verif.Lemmas.Lammps.NoMpiEval
import Verif.Model.Kokkos.PairNoMpi

/-! # The mode without MPI message passing of the Kokkos pair style -/

namespace Verif.Kokkos.Pair
open Verif.Par Verif.Par.Prog Verif.Lammps Verif.MACE Verif.Spec

/-- All cells of a one-dimensional view. -/
def Line (n : ℕ) : Set (Unit × List ℕ) := {c | ∃ i < n, c = ((), [i])}

/-- Counting with atomic additions. -/
theorem counts_spec (LN : Launcher ℕ) {n : ℕ} {p : (Unit → List ℕ) → Prog Unit ℕ} {v : List ℕ} {δ : ℕ → ℕ}
    (h : ∀ E, Ad E (p E) (Line n) v (fun c => δ (c.2.headD 0))) :
    ∃ w, LN.launch1 (p (fun _ => [n])) (View.new [n] 0) = some w ∧ w.data = tab n δ := by
  obtain ⟨w, h1, h2, h3, h4, -⟩ := launch1_lc LN (v := View.new [n] (0 : ℕ)) (fun _ => 0) (h (fun _ => [n])).lc (by
    rintro c ⟨k, hk, hc⟩
    cases hc
    exact View.get_new (flat_one hk) 0)
  refine ⟨w, h1, data_eq (h3 (View.new_ok _ _)) h2 (fun i hi => ?_)⟩
  rw [h4 [i] ⟨i, hi, rfl⟩, zero_add]
  rfl

theorem mark_ad {E : Unit → List ℕ} {n j : ℕ} (hj : j < n) :
    Ad E (atomic E () [j] 1 : Prog Unit ℕ) (Line n) [] (fun c => if c.2.headD 0 = j then 1 else 0) := by
  classical
  refine (Ad.atomic (A := Line n) ⟨j, hj, rfl⟩).congr ?_
  rintro _ ⟨i, hi, rfl⟩
  simp

variable {A : Atoms} {L : NList} {rc : ℝ} {mt : List ℕ} {nT : ℕ}

theorem centre_get (hL : ListOk A L) {ii : ℕ} (hii : ii < L.inum) : nthN (centres L) ii ∈ centres L := by
  have := centres_length hL
  unfold nthN
  rw [List.getElem?_eq_getElem (by omega), Option.getD_some]
  exact List.getElem_mem _

/-- How often an atom is marked as local. -/
def nLocal (L : NList) (j : ℕ) : ℕ := ∑ ii ∈ Finset.range L.inum, if j = nthN (centres L) ii then 1 else 0

theorem nLocal_zero (hL : ListOk A L) (j : ℕ) : nLocal L j = 0 ↔ j ∉ centres L := by
  unfold nLocal
  rw [Finset.sum_eq_zero_iff]
  constructor
  · intro h hj
    obtain ⟨k, hk, he⟩ := List.getElem_of_mem hj
    have := h k (Finset.mem_range.mpr (by have := centres_length hL; omega))
    rw [if_pos] at this
    · exact absurd this (by norm_num)
    · unfold nthN
      rw [List.getElem?_eq_getElem hk, he]
      rfl
  · intro h ii hii
    rw [if_neg]
    rintro rfl
    exact h (centre_get hL (Finset.mem_range.mp hii))

theorem markLocal_spec (LN : Launcher ℕ) (hL : ListOk A L) :
    ∃ w, LN.launch1 (markLocalK L (fun _ => [A.nlocal + A.nghost])) (View.new [A.nlocal + A.nghost] 0) = some w ∧
      w.data = tab (A.nlocal + A.nghost) (nLocal L) :=
  counts_spec LN (p := markLocalK L) (fun E => Ad.parFor (d := fun ii c => if c.2.headD 0 = nthN (centres L) ii then 1 else 0)
    (fun ii hii => ⟨[], Ad.opt (ilist_get hL hii) (mark_ad (hL.entry _ (centre_get hL hii)).lt)⟩))

open Classical in
/-- How often an atom is marked as ghost. -/
noncomputable def nGhost (A : Atoms) (L : NList) (rc : ℝ) (j : ℕ) : ℕ :=
  ∑ ii ∈ Finset.range L.inum, ∑ jj ∈ Finset.range (nthN L.num (nthN (centres L) ii)),
    if Lammps.d2 A (nthN (centres L) ii) (nthN (listed L (nthN (centres L) ii)) jj) < rc * rc ∧
      nthN (listed L (nthN (centres L) ii)) jj ∉ centres L ∧ j = nthN (listed L (nthN (centres L) ii)) jj then 1 else 0

theorem nGhost_ne (hL : ListOk A L) (j : ℕ) : nGhost A L rc j ≠ 0 ↔ j ∉ centres L ∧ ∃ i ∈ centres L, j ∈ nbrs A L rc i := by
  classical
  unfold nGhost
  rw [Ne, Finset.sum_eq_zero_iff]
  constructor
  · intro h
    push Not at h
    obtain ⟨ii, hii, h⟩ := h
    rw [Ne, Finset.sum_eq_zero_iff] at h
    push Not at h
    obtain ⟨jj, hjj, h⟩ := h
    have hii := Finset.mem_range.mp hii
    have hi := hL.entry _ (centre_get hL hii)
    by_cases hc : Lammps.d2 A (nthN (centres L) ii) (nthN (listed L (nthN (centres L) ii)) jj) < rc * rc ∧
      nthN (listed L (nthN (centres L) ii)) jj ∉ centres L ∧ j = nthN (listed L (nthN (centres L) ii)) jj
    · obtain ⟨h1, h2, rfl⟩ := hc
      refine ⟨h2, _, centre_get hL hii, ?_⟩
      rw [nbrs_filter, List.mem_filter]
      refine ⟨?_, by simpa using h1⟩
      exact nthN_mem (by rw [listed_length hi]; exact Finset.mem_range.mp hjj)
    · exact absurd (if_neg hc) h
  · rintro ⟨h1, i, hi, hj⟩ h
    obtain ⟨ii, hii, he⟩ := List.getElem_of_mem hi
    have hn : nthN (centres L) ii = i := by unfold nthN; rw [List.getElem?_eq_getElem hii, he]; rfl
    have h := h ii (Finset.mem_range.mpr (by have := centres_length hL; omega))
    rw [hn, Finset.sum_eq_zero_iff] at h
    rw [nbrs_filter, List.mem_filter] at hj
    obtain ⟨hj, hd⟩ := hj
    obtain ⟨jj, hjj, hej⟩ := List.getElem_of_mem hj
    have hm : nthN (listed L i) jj = j := by unfold nthN; rw [List.getElem?_eq_getElem hjj, hej]; rfl
    have h := h jj (Finset.mem_range.mpr (by rw [← listed_length (hL.entry i hi)]; exact hjj))
    rw [hm, if_pos ⟨by simpa using hd, h1, rfl⟩] at h
    exact absurd h (by norm_num)

theorem markGhost_spec (LN : Launcher ℕ) (hA : AtomsOk A mt nT) (hL : ListOk A L) :
    ∃ w, LN.launch1 (markGhostK A L (rc * rc) (tab (A.nlocal + A.nghost) (nLocal L)) (fun _ => [A.nlocal + A.nghost]))
        (View.new [A.nlocal + A.nghost] 0) = some w ∧ w.data = tab (A.nlocal + A.nghost) (nGhost A L rc) := by
  classical
  refine counts_spec LN (p := markGhostK A L (rc * rc) (tab (A.nlocal + A.nghost) (nLocal L))) (fun E => Ad.parFor
    (d := fun ii c => ∑ jj ∈ Finset.range (nthN L.num (nthN (centres L) ii)),
      if Lammps.d2 A (nthN (centres L) ii) (nthN (listed L (nthN (centres L) ii)) jj) < rc * rc ∧
        nthN (listed L (nthN (centres L) ii)) jj ∉ centres L ∧ c.2.headD 0 = nthN (listed L (nthN (centres L) ii)) jj then 1 else 0)
    (fun ii hii => ⟨[], ?_⟩))
  have hi := hL.entry _ (centre_get hL hii)
  generalize hg : nthN (centres L) ii = i at hi
  refine Ad.opt (a := i) (by rw [← hg]; exact ilist_get hL hii) ?_
  refine Ad.opt (a := ((pos A i 0, pos A i 1, pos A i 2), nthN L.num i)) (by rw [posAt_eq hA hi.lt, get_nthN hi.num]; rfl) ?_
  refine Ad.parFor (fun jj hjj => ⟨[], ?_⟩)
  have hl : jj < (listed L i).length := by rw [listed_length hi]; exact hjj
  have he : nthN (listed L i) jj = (listed L i)[jj] := by unfold nthN; rw [List.getElem?_eq_getElem hl]; rfl
  have hj := hi.nb _ (List.getElem_mem hl)
  refine Ad.opt (pairAt_eq hA hi hl) ?_
  dsimp only
  rw [he]
  generalize (listed L i)[jj] = j at hj
  by_cases h : Lammps.d2 A i j < rc * rc
  · rw [if_pos h]
    refine Ad.opt (getElem?_tab_lt hj) ?_
    by_cases hc : j ∈ centres L
    · rw [if_neg (fun h0 => (nLocal_zero hL j).mp h0 hc)]
      exact Ad.ret.congr (fun c _ => if_neg (fun h => h.2.1 hc))
    · rw [if_pos ((nLocal_zero hL j).mpr hc)]
      exact (mark_ad hj).congr (fun c _ => by simp [h, hc])
  · rw [if_neg h]
    exact Ad.ret.congr (fun c _ => if_neg (fun hn => h hn.1))

/-! ## Collection of the ghosts -/

theorem filter_get {p : ℕ → Bool} {n i : ℕ} (hi : i < n) (hp : p i = true) :
    ((List.range n).filter p)[((List.range i).filter p).length]? = some i := by
  induction n with
  | zero => omega
  | succ n ih =>
    rw [List.range_succ, List.filter_append]
    by_cases h : i < n
    · rw [List.getElem?_append_left, ih h]
      exact (List.getElem?_eq_some_iff.mp (ih h)).1
    · obtain rfl : i = n := by omega
      rw [List.getElem?_append_right le_rfl]
      simp [hp]

theorem off_ind {p : ℕ → Bool} {n i : ℕ} (hi : i ≤ n) : off (tab n (fun j => if p j then 1 else 0)) i = ((List.range i).filter p).length := by
  induction i with
  | zero => simp [off_zero]
  | succ i ih =>
    rw [off_succ (getElem?_tab_lt (by omega)), ih (by omega), List.range_succ, List.filter_append, List.length_append]
    congr 1
    cases h : p i <;> simp [h]

theorem ghostK_spec (LN : Launcher ℕ) {n : ℕ} {δ : ℕ → ℕ} {up : List ℕ} {p : ℕ → Bool} (hp : ∀ j, p j = true ↔ δ j ≠ 0)
    (hup : ∀ i < n, up[i]? = some ((List.range i).filter p).length) {m : ℕ} (hm : m = ((List.range n).filter p).length) :
    ∃ w, LN.launch1 (ghostK (tab n δ) up n (fun _ => [m])) (View.new [m] 0) = some w ∧ w.data = (List.range n).filter p := by
  have hd : ((List.range n).filter p).Nodup := List.nodup_range.filter _
  have hlt : ∀ i < n, p i = true → ((List.range i).filter p).length < m := fun i hi h => by
    rw [hm]; exact (List.getElem?_eq_some_iff.mp (filter_get hi h)).1
  obtain ⟨w, h1, h2, h3, h4, -⟩ := launch1_lc LN (v := View.new [m] (0 : ℕ)) (fun _ => 0) (p := ghostK (tab n δ) up n (fun _ => [m]))
    (D := ex n (fun i => {c | p i = true ∧ c = ((), [((List.range i).filter p).length])}))
    (q := fun c _ => nthN ((List.range n).filter p) (c.2.headD 0)) (by
      refine Lc.parFor (fun i hi => Lc.opt (a := (δ i, ((List.range i).filter p).length)) ?_ ?_) (fun i hi j hj c h1 h2 => ?_)
      · rw [getElem?_tab_lt hi, hup i hi]; rfl
      · by_cases h : δ i ≠ 0
        · rw [if_pos h]
          refine Lc.frame (D := {((), [((List.range i).filter p).length])}) (Lc.put (fun _ => ?_)) ?_ (fun _ _ _ => rfl) ?_
          · change nthN ((List.range n).filter p) ((List.range i).filter p).length = i
            unfold nthN
            rw [filter_get hi ((hp i).mpr h)]; rfl
          · rintro c rfl; exact ⟨(hp i).mpr h, rfl⟩
          · rintro c ⟨-, hc⟩ hn; exact absurd hc hn
        · rw [if_neg h]
          exact Lc.ret (fun c hc => absurd ((hp i).mp hc.1) h)
      · obtain ⟨a1, rfl⟩ := h1
        obtain ⟨a2, a3⟩ := h2
        have e : ((List.range i).filter p).length = ((List.range j).filter p).length := by simpa using a3
        have b1 := filter_get hi a1
        have b2 := filter_get hj a2
        rw [e, b2] at b1
        exact (Option.some.inj b1).symm) (by
      rintro c ⟨i, hi, h, hc⟩
      cases hc
      exact View.get_new (flat_one (hlt i hi h)) 0)
  refine ⟨w, h1, ?_⟩
  rw [data_eq (F := nthN ((List.range n).filter p)) (h3 (View.new_ok _ _)) h2 (fun k hk => ?_)]
  · have := map_eq_tab hm.symm (fun i => i)
    rw [List.map_id'] at this
    exact this.symm
  · rw [h4 [k] ?_]
    · rfl
    · have hk' : k < ((List.range n).filter p).length := by rw [← hm]; exact hk
      have hmem := List.mem_filter.mp (List.getElem_mem hk')
      have hlt := List.mem_range.mp hmem.1
      refine ⟨_, hlt, hmem.2, ?_⟩
      obtain ⟨b1, b2⟩ := List.getElem?_eq_some_iff.mp (filter_get hlt hmem.2)
      have := (List.Nodup.getElem_inj_iff hd).mp b2
      rw [this]

/-- The ghosts are the halo. -/
theorem ghostsK_spec (V : PEnv) (hA : AtomsOk A mt nT) (hL : ListOk A L) : ghostsK V A L (rc * rc) = some (halo A L rc) := by
  classical
  obtain ⟨w1, a1, a2⟩ := markLocal_spec V.LN hL
  obtain ⟨w2, b1, b2⟩ := markGhost_spec (rc := rc) V.LN hA hL
  rw [← a2] at b1
  let p : ℕ → Bool := fun j => decide (nGhost A L rc j ≠ 0)
  have hhalo : (List.range (A.nlocal + A.nghost)).filter p = halo A L rc := by
    unfold halo
    apply List.filter_congr
    intro j _
    exact decide_eq_decide.mpr (nGhost_ne hL j)
  have hcount : w2.data.countP (fun b => b ≠ 0) = ((List.range (A.nlocal + A.nghost)).filter p).length := by
    rw [b2]
    unfold tab
    rw [List.countP_map, List.countP_eq_length_filter]
    rfl
  have hind : w2.data.map (fun b => if b ≠ 0 then 1 else 0) = tab (A.nlocal + A.nghost) (fun j => if p j then 1 else 0) := by
    rw [b2]
    unfold tab
    rw [List.map_map]
    apply List.map_congr_left
    intro j _
    by_cases h : nGhost A L rc j = 0 <;> simp [p, h]
  obtain ⟨w3, c1, c2⟩ := ghostK_spec V.LN (n := A.nlocal + A.nghost) (δ := nGhost A L rc) (p := p)
    (up := tab (A.nlocal + A.nghost) (off (w2.data.map (fun b => if b ≠ 0 then 1 else 0)))) (fun j => by simp [p])
    (fun i hi => by rw [getElem?_tab_lt hi, hind, off_ind hi.le]) rfl
  rw [← b2, ← hcount] at c1
  unfold ghostsK
  refine (bind_of_some a1 _).trans <| (bind_of_some b1 _).trans <| (bind_of_some (firstNeigh_spec V.toEnv (by rw [hind]; simp)) _).trans <|
    (bind_of_some c1 _).trans ?_
  rw [c2, hhalo]

/-! ## Numbers of the neighbours among the nodes -/

theorem searchK_lc {E : Unit → List ℕ} {ns nodeI : List ℕ} {n j ij : ℕ} (hn : nodeI.take n = ns) (hl : ns.length = n) (hj : j ∈ ns) :
    ∀ m ii, ii + m = n → ii ≤ rank ns j → Lc E (searchK E nodeI j ij m ii) {((), [ij])} (fun _ _ => rank ns j) := by
  have hr : rank ns j < ns.length := List.idxOf_lt_length_iff.mpr hj
  intro m
  induction m with
  | zero => intro ii h1 h2; omega
  | succ m ih =>
    intro ii h1 h2
    have hii : ii < ns.length := by omega
    refine Lc.opt (a := ns[ii]) (by rw [take_get' hn (by omega), List.getElem?_eq_getElem hii]) ?_
    by_cases h : ns[ii] = j
    · rw [if_pos h]
      refine Lc.put (fun _ => ?_)
      by_contra hne
      have hlt : ii < rank ns j := by omega
      have := List.not_of_lt_findIdx (p := (· == j)) (xs := ns) (i := ii) hlt
      simp [h] at this
    · rw [if_neg h]
      refine ih (ii + 1) (by omega) ?_
      rcases Nat.eq_or_lt_of_le h2 with e | e
      · exfalso
        apply h
        have := List.getElem_idxOf hr
        subst e
        exact this
      · exact e

theorem neighK_spec (LN : Launcher ℕ) {ns nodeI idx : List ℕ} {n e : ℕ} (hn : nodeI.take n = ns) (hl : ns.length = n) {J : ℕ → ℕ}
    (hi : ∀ k < e, idx[k]? = some (J k)) (hJ : ∀ k < e, J k ∈ ns) {nii : List ℕ} (hlen : e ≤ nii.length) :
    ∃ v, LN.launch1 (neighK nodeI idx n e (fun _ => [e])) (sub nii e) = some v ∧ v.data = tab e (fun k => rank ns (J k)) := by
  obtain ⟨w, h1, h2, h3, h4, -⟩ := launch1_lc LN (v := sub nii e) (fun c => ((sub nii e).get c).getD 0) (p := neighK nodeI idx n e (fun _ => [e]))
    (D := ex e (fun k => {((), [k])})) (q := fun c _ => rank ns (J (c.2.headD 0))) (by
      refine Lc.parFor (fun k hk => Lc.opt (hi k hk) ((searchK_lc hn hl (hJ k hk) n 0 (by omega) (Nat.zero_le _)).congr ?_)) ?_
      · rintro c rfl x; rfl
      · intro i _ j _ c h1 h2
        have := h1.symm.trans h2
        simpa using this) (by
      rintro c ⟨k, hk, hc⟩
      obtain ⟨x, hx⟩ := View.exists_get (sub_ok hlen) (is := [k]) (flat_one hk)
      cases hc
      rw [hx]; rfl)
  exact ⟨w, h1, data_eq (h3 (sub_ok hlen)) h2 (fun k hk => h4 [k] ⟨k, hk, rfl⟩)⟩

theorem bonds_append (ns ms : List ℕ) : bonds A L rc (ns ++ ms) = bonds A L rc ns ++ bonds A L rc ms := by
  unfold bonds
  rw [List.flatMap_append]

/-- What is built before the evaluation. -/
theorem buildNoMpiK_spec (V : PEnv) (hA : AtomsOk A mt nT) (hL : ListOk A L) (hH : ∀ j ∈ halo A L rc, EntryOk A L j) (w : Mem) (nii : List ℕ)
    {ix : ℕ → ℕ} (hx : IxOk A L rc ix) :
    ∃ q, buildNoMpiK V A L (rc * rc) mt w nii = some q ∧ q.ghosts = (halo A L rc).length ∧
      Holds A L rc (allNodes A L rc) (fun j => j) q.w ∧
      q.graph L.inum = { gx (allSys A L rc mt ix) (allSys A L rc mt ix).E (allVecs A L rc) with
        idx := (bonds A L rc (allNodes A L rc)).map (fun p => p.2) } ∧
      ∀ e < off (allSys A L rc mt ix).nn L.inum, (q.nii.take q.local_edges)[e]? = some (nthN (allSys A L rc mt ix).idx e) := by
  have hn : (allNodes A L rc).length = L.inum + (halo A L rc).length := all_length hL
  have hent := all_entry hL hH
  obtain ⟨w1, a1, a2, a3, a4⟩ := nodeLaunch_spec (rc := rc) V hA hn hent
    (node := fun ii => if ii < L.inum then L.ilist[ii]? else (halo A L rc)[ii - L.inum]?) (w := { w with
      nodeI := growL w.nodeI (L.inum + (halo A L rc).length), types := growL w.types (L.inum + (halo A L rc).length)
      nn := List.replicate (L.inum + (halo A L rc).length) 0 ++ (growL w.nn (L.inum + (halo A L rc).length)).drop (L.inum + (halo A L rc).length) })
    (fun ii hii => by
      have hc := centres_length hL
      unfold allNodes nthN
      by_cases h : ii < L.inum
      · rw [if_pos h, List.getElem?_append_left (by omega), ilist_get hL h]; rfl
      · rw [if_neg h, List.getElem?_append_right (by omega), hc, List.getElem?_eq_getElem (by omega)]; rfl)
    (growL_len _ _) (growL_len _ _) (by simp)
  set n := L.inum + (halo A L rc).length with hdn
  have hlen : n ≤ w1.nn.length := by
    have := congrArg List.length a4
    rw [List.length_take, List.length_map, hn] at this
    omega
  have hoff : off ((allNodes A L rc).map (fun i => (nbrs A L rc i).length)) n = (bonds A L rc (allNodes A L rc)).length := by rw [← hn]; exact bonds_nn _
  have hsub : ∀ ii ≤ n, off w1.nn ii = off ((allNodes A L rc).map (fun i => (nbrs A L rc i).length)) ii := fun ii hii => by
    rw [← a4]
    unfold off
    rw [List.take_take, min_eq_left hii]
  obtain ⟨el, hel⟩ : ∃ el, el = off w1.nn L.inum := ⟨_, rfl⟩
  have c1 : reduceTo V.LN (countK w1.nn 0 L.inum) = some el := by
    rw [count_spec V.LN (by omega), List.drop_zero, hel]; rfl
  have c2 : reduceTo V.LN (countK w1.nn L.inum (halo A L rc).length) = some ((bonds A L rc (allNodes A L rc)).length - el) := by
    rw [count_spec V.LN (by omega), ← hoff, ← hsub n le_rfl, hel]
    congr 1
    unfold off
    rw [hdn, List.take_add, List.sum_append]
    omega
  have hle : el ≤ (bonds A L rc (allNodes A L rc)).length := by
    rw [hel, ← hoff, ← hsub n le_rfl]
    exact off_mono _ (by omega)
  obtain ⟨w2, b1, b2, b3⟩ := scanFirst_spec V hlen
  have hb : ∀ ii < n, w2.fn[ii]? = some (off ((allNodes A L rc).map (fun i => (nbrs A L rc i).length)) ii) := fun ii hii => by
    rw [b3 ii hii, hsub ii hii.le]
  have hI2 : w2.nodeI = w1.nodeI := by rw [b2]
  obtain ⟨w3, d1, d2, d3, d4, d5, d6, d7, d8, d9⟩ := edgeViews_spec (rc := rc) (jOf := fun j => j) (e := (bonds A L rc (allNodes A L rc)).length) V hA hn hent
    (node := fun ii => w2.nodeI[ii]?) (look := some) (fun ii hii => by
      rw [hI2, take_get' a2 hii]; exact get_nthN (by omega)) hb (fun _ _ _ _ => rfl) rfl
  have e2 : w3.nodeI = w1.nodeI := d2.trans hI2
  have e3 : w3.types = w1.types := by rw [d3, b2]
  have e4 : w3.nn = w1.nn := by rw [d4, b2]
  have hloc : el = (bonds A L rc (centres L)).length := by
    rw [hel, hsub _ (by omega), ← bonds_nn (A := A) (L := L) (rc := rc) (centres L)]
    unfold allNodes off
    rw [List.map_append, centres_length hL, List.take_append_of_le_length (by simp [centres_length hL])]
  have hJ : ∀ k < el, ((bonds A L rc (allNodes A L rc))[k]?.getD (0, 0)).2 ∈ allNodes A L rc := by
    intro k hk
    have hk' : k < (bonds A L rc (centres L)).length := by omega
    rw [allNodes, bonds_append, List.getElem?_append_left hk', List.getElem?_eq_getElem hk', Option.getD_some]
    obtain ⟨h1, h2⟩ := bonds_mem.mp (List.getElem_mem hk')
    exact nbr_mem_allNodes hL h1 h2
  have hidx : ∀ k < el, w3.idx[k]? = some ((bonds A L rc (allNodes A L rc))[k]?.getD (0, 0)).2 := by
    intro k hk
    rw [take_get' d6 (by omega), List.getElem?_map, List.getElem?_eq_getElem (by omega)]; rfl
  obtain ⟨v, f1, f2⟩ := neighK_spec V.LN (ns := allNodes A L rc) (nodeI := w3.nodeI) (idx := w3.idx) (n := n) (e := el) (by rw [e2]; exact a2) hn
    hidx hJ (nii := growL nii el) (growL_len _ _)
  have hadd : el + ((bonds A L rc (allNodes A L rc)).length - el) = (bonds A L rc (allNodes A L rc)).length := by omega
  refine ⟨⟨(halo A L rc).length, el, el + ((bonds A L rc (allNodes A L rc)).length - el), w3, back (growL nii el) v⟩, ?_, rfl, ?_, ?_, ?_⟩
  · unfold buildNoMpiK
    refine (bind_of_some (ghostsK_spec V hA hL) _).trans ?_
    refine (bind_of_some a1 _).trans <| (bind_of_some c1 _).trans <| (bind_of_some c2 _).trans <| (bind_of_some b1 _).trans ?_
    dsimp only
    rw [hadd]
    exact (bind_of_some d1 _).trans <| (bind_of_some f1 _)
  · exact ⟨by rw [hn]; dsimp only; rw [e2]; exact a2, by rw [hn]; dsimp only; rw [e4]; exact a4,
      fun ii hii => by dsimp only; rw [d5]; exact hb ii (by omega), d6, d8⟩
  · unfold NoMpiK.graph
    dsimp only
    rw [hadd, ← hdn, graph_of (jOf := fun j => j) hn (by rw [e3]; exact a3) (by rw [e4]; exact a4) d6 d7 d8 d9, graph_gx]
    rfl
  · intro e he
    have hel' : off (allSys A L rc mt ix).nn L.inum = el := by
      rw [hel, hsub _ (by omega)]; rfl
    rw [hel'] at he
    dsimp only
    rw [back_take (by rw [f2]; simp), f2, getElem?_tab_lt he, sysOf_idx (by omega), show ix (endB A L rc (allNodes A L rc) e) = _ from hx.mem _ (hJ e he)]
    rfl

/-- The numbering of the neighbours. -/
theorem exists_ix (A : Atoms) (L : NList) (rc : ℝ) : ∃ ix, IxOk A L rc ix := by
  classical
  exact ⟨fun j => if j ∈ allNodes A L rc then rank (allNodes A L rc) j else 0, fun j hj => if_pos hj, fun j hj => if_neg hj⟩

theorem ix_unique {ix ix' : ℕ → ℕ} (h : IxOk A L rc ix) (h' : IxOk A L rc ix') : ix = ix' := by
  funext j
  by_cases hj : j ∈ allNodes A L rc
  · rw [h.mem j hj, h'.mem j hj]
  · rw [h.not_mem j hj, h'.not_mem j hj]

variable {f : File} {sph : ℝ → ℝ → ℝ → ℕ → ℝ} {dsph : ℝ → ℝ → ℝ → ℕ → ℕ → ℝ} {P : Kokkos.Params ℝ}

/-- `compute_no_mpi_message_passing`. -/
theorem computeNoMpiK_spec (V : PEnv) (hf : FileOk f) (hP : LoadedK f sph dsph P) (hA : AtomsOk A mt f.nT) (hL : ListOk A L)
    (hH : ∀ j ∈ halo A L rc, EntryOk A L j) {ix : ℕ → ℕ} (hx : IxOk A L rc ix) (hX : Inside f (allSys A L rc mt ix) (allVecs A L rc))
    {s : Kokkos.State ℝ} (hs : StOkK f P s) (w : Mem) (nii : List ℕ)
    {fl : Flags} (hv : fl.vAtom = false) {t : Tally} {M m : ℕ} {f0 : ℕ → ℕ → ℝ} {v0 : ℕ → ℝ} (hf0 : t.f = tab2 M 3 f0)
    (hv0 : t.virial = tab m v0) (hM : A.nlocal + A.nghost ≤ M) (hm : 6 ≤ m) (hea : L.inum ≤ t.eatom.length) :
    ∃ w' nii' s', computeNoMpiK V f.zbl P rc mt fl A L w nii s t = some (w', nii', s',
      { eng := if fl.eGlobal then t.eng + ∑ i ∈ Finset.range L.inum,
          energy (netOf f) (confOf f sph (allSys A L rc mt ix) (allVecs A L rc)) i else t.eng
        eatom := if fl.eAtom then tab t.eatom.length (fun i => if i < L.inum then
          nth t.eatom i + energy (netOf f) (confOf f sph (allSys A L rc mt ix) (allVecs A L rc)) i else nth t.eatom i) else t.eatom
        f := tab2 M 3 (fun a c => f0 a c + ∑ e ∈ Finset.range (bonds A L rc (allNodes A L rc)).length,
          noMpiForce f sph dsph (allSys A L rc mt ix) (allVecs A L rc) L.inum e c
            * ((if a = endB A L rc (allNodes A L rc) e then 1 else 0) - if a = endA A L rc (allNodes A L rc) e then 1 else 0))
        virial := if fl.vGlobal then tab m (fun k => v0 k + if k < 6 then
          ∑ e ∈ Finset.range (bonds A L rc (allNodes A L rc)).length,
            1 / 2 * (allVecs A L rc e (voigt k).1 * noMpiForce f sph dsph (allSys A L rc mt ix) (allVecs A L rc) L.inum e (voigt k).2
              + allVecs A L rc e (voigt k).2 * noMpiForce f sph dsph (allSys A L rc mt ix) (allVecs A L rc) L.inum e (voigt k).1)
            else 0) else tab m v0 }) ∧ StOkK f P s' := by
  obtain ⟨q, b1, b2, b3, b4, b5⟩ := buildNoMpiK_spec (rc := rc) V hA hL hH w nii hx
  have hT := all_in (mt := mt) hA hL hH hx
  have hlen := all_length (rc := rc) hL
  have hl : L.inum ≤ (allSys A L rc mt ix).N := by change _ ≤ (allNodes A L rc).length; omega
  have hE : (allSys A L rc mt ix).E = (bonds A L rc (allNodes A L rc)).length := sysOf_E _ _
  obtain ⟨s0, s1, s2, s3, e0, e1, e2, e3, e4, e5, e6⟩ := partEval V.toEnv hf hT hP hX hl hs
    ((bonds A L rc (allNodes A L rc)).map (fun p => p.2)) b5
  rw [hE] at e6
  rw [← b4] at e1 e3
  have hloc : q.localGraph L.inum = { gx (allSys A L rc mt ix) (allSys A L rc mt ix).E (allVecs A L rc) with
      N := L.inum, idx := q.nii.take q.local_edges } := by
    unfold NoMpiK.localGraph
    rw [b4]
  rw [← hloc] at e0 e2
  have hfin := finish_spec (nE := L.inum) (M := M) (En := energy (netOf f) (confOf f sph (allSys A L rc mt ix) (allVecs A L rc)))
    (F := noMpiForce f sph dsph (allSys A L rc mt ix) (allVecs A L rc) L.inum) (f0 := f0) (v0 := v0) (eng := t.eng) (ea := t.eatom)
    (energies := s3.energies) (forces := s3.forces) V b3
    (fun i hi => by rw [e5.has hi, if_pos hi])
    (fun e he c hc => by
      have := e6.has (p := 3 * e + c) (by omega)
      rw [show (3 * e + c) / 3 = e by omega, show (3 * e + c) % 3 = c by omega] at this
      dsimp only at this
      rw [if_pos (by omega)] at this
      exact this)
    (fun i hi => by have := (all_entry hL hH i hi).lt; omega)
    (fun i hi j hj => by have := nbrs_lt (all_entry hL hH i hi) hj; omega) hea hm hv (fl := fl) (m := m)
  rw [hlen, ← b2, ← hf0, ← hv0, show (⟨t.eng, t.eatom, t.f, t.virial⟩ : Tally) = t from rfl] at hfin
  refine ⟨q.w, q.nii, s3, ?_, e4⟩
  rw [← hv0]
  unfold computeNoMpiK
  exact (bind_of_some b1 _).trans <| (bind_of_some e0 _).trans <| (bind_of_some e1 _).trans <| (bind_of_some e2 _).trans <|
    (bind_of_some e3 _).trans <| (bind_of_some hfin _)

end Verif.Kokkos.Pair
