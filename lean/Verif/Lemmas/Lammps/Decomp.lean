import Verif.Spec.Decomp
import Verif.Base.Perm
import Verif.Lemmas.Lammps.NoMpiEval

/-! # Processes see the same environments as the whole system -/

namespace Verif.Lammps
open Verif.MACE Verif.Spec

variable {A A' : Atoms} {L L' : NList} {rc : ℝ} {mt : List ℕ} {f : File} {sph : ℝ → ℝ → ℝ → ℕ → ℝ}

theorem sysOf_edg {ns : List ℕ} {ix : ℕ → ℕ} {ii : ℕ} (hi : ii < ns.length) {e : ℕ} :
    e ∈ (sysOf A L rc mt ns ix).edg ii ↔ ∃ k < (nbrs A L rc ns[ii]).length, e = off (ns.map (fun i => (nbrs A L rc i).length)) ii + k := by
  have hn : (ns.map (fun i => (nbrs A L rc i).length))[ii]? = some (nbrs A L rc ns[ii]).length := by
    rw [List.getElem?_map, List.getElem?_eq_getElem hi]; rfl
  have h1 := off_succ hn
  change e ∈ Finset.Ico (off (ns.map (fun i => (nbrs A L rc i).length)) ii) (off (ns.map (fun i => (nbrs A L rc i).length)) (ii + 1)) ↔ _
  rw [Finset.mem_Ico, h1]
  constructor
  · rintro ⟨h2, h3⟩
    exact ⟨e - off (ns.map (fun i => (nbrs A L rc i).length)) ii, by omega, by omega⟩
  · rintro ⟨k, h2, rfl⟩
    omega

theorem ends_get {ns : List ℕ} {ii k : ℕ} (hi : ii < ns.length) (hk : k < (nbrs A L rc ns[ii]).length) :
    endA A L rc ns (off (ns.map (fun i => (nbrs A L rc i).length)) ii + k) = ns[ii] ∧
    endB A L rc ns (off (ns.map (fun i => (nbrs A L rc i).length)) ii + k) = (nbrs A L rc ns[ii])[k] := by
  unfold endA endB
  rw [bonds_get hi hk]
  exact ⟨rfl, rfl⟩

theorem view_get {κ : ℕ → ℕ} {i k : ℕ} (hk : k < (nbrs A L rc i).length) :
    (view A L rc mt κ i)[k]? = some (fun c : Fin 3 => disp A i (nbrs A L rc i)[k] c, species mt A (nbrs A L rc i)[k], κ (nbrs A L rc i)[k]) := by
  unfold view
  rw [List.getElem?_map, List.getElem?_eq_getElem hk]; rfl

theorem edg_lt_bonds {ns : List ℕ} {ix : ℕ → ℕ} {ii : ℕ} (hi : ii < ns.length) {e : ℕ} (he : e ∈ (sysOf A L rc mt ns ix).edg ii) :
    e < (bonds A L rc ns).length := by
  rw [← sysOf_E (A := A) (L := L) (rc := rc) (mt := mt) ns ix]
  exact edg_lt hi he

/-- Equal views give matching environments. -/
theorem sameEnv_of_view {ns ns' : List ℕ} {ix ix' κ κ' : ℕ → ℕ} {ii ii' : ℕ} (hi : ii < ns.length) (hi' : ii' < ns'.length)
    (hs : species mt A ns[ii] = species mt A' ns'[ii'])
    (hv : (view A L rc mt κ ns[ii]).Perm (view A' L' rc mt κ' ns'[ii'])) :
    ∃ σ, SameEnv (sysOf A L rc mt ns ix) (vecs A (bonds A L rc ns)) (sysOf A' L' rc mt ns' ix') (vecs A' (bonds A' L' rc ns')) ii ii' σ ∧
      ∀ e ∈ (sysOf A L rc mt ns ix).edg ii, κ' (endB A' L' rc ns' (σ e)) = κ (endB A L rc ns e) := by
  obtain ⟨π, h1, h2⟩ := perm_index hv
  have hl : (view A L rc mt κ ns[ii]).length = (nbrs A L rc ns[ii]).length := by simp [view]
  have hl' : (view A' L' rc mt κ' ns'[ii']).length = (nbrs A' L' rc ns'[ii']).length := by simp [view]
  rw [hl, hl'] at h1
  rw [hl] at h2
  let o := off (ns.map (fun i => (nbrs A L rc i).length)) ii
  let o' := off (ns'.map (fun i => (nbrs A' L' rc i).length)) ii'
  have hπ : ∀ k < (nbrs A L rc ns[ii]).length, π k < (nbrs A' L' rc ns'[ii']).length := fun k hk => h1.1 hk
  have hget : ∀ k (hk : k < (nbrs A L rc ns[ii]).length),
      (fun c : Fin 3 => disp A' ns'[ii'] ((nbrs A' L' rc ns'[ii'])[π k]'(hπ k hk)) c) = (fun c : Fin 3 => disp A ns[ii] (nbrs A L rc ns[ii])[k] c) ∧
      species mt A' ((nbrs A' L' rc ns'[ii'])[π k]'(hπ k hk)) = species mt A (nbrs A L rc ns[ii])[k] ∧
      κ' ((nbrs A' L' rc ns'[ii'])[π k]'(hπ k hk)) = κ (nbrs A L rc ns[ii])[k] := by
    intro k hk
    have := h2 k hk
    rw [view_get hk, view_get (hπ k hk)] at this
    have := Option.some.inj this
    simpa only [Prod.mk.injEq] using this
  refine ⟨fun e => o' + π (e - o), ⟨?_, ⟨?_, ?_, ?_⟩, ?_, ?_⟩, ?_⟩
  · rw [sysOf_type hi, sysOf_type hi', hs]
  · intro e he
    obtain ⟨k, hk, rfl⟩ := (sysOf_edg hi).mp he
    refine (sysOf_edg hi').mpr ⟨π k, hπ k hk, ?_⟩
    dsimp only [o, o']
    rw [Nat.add_sub_cancel_left]
  · intro e he e' he' heq
    obtain ⟨k, hk, rfl⟩ := (sysOf_edg hi).mp he
    obtain ⟨k', hk', rfl⟩ := (sysOf_edg hi).mp he'
    dsimp only [o, o'] at heq
    rw [Nat.add_sub_cancel_left, Nat.add_sub_cancel_left] at heq
    rw [h1.2.1 (show k ∈ Set.Iio _ from hk) (show k' ∈ Set.Iio _ from hk') (by omega)]
  · intro e he
    obtain ⟨k, hk, rfl⟩ := (sysOf_edg hi').mp he
    obtain ⟨k', hk', rfl⟩ := h1.2.2 (show k ∈ Set.Iio _ from hk)
    refine ⟨o + k', (sysOf_edg hi).mpr ⟨k', hk', rfl⟩, ?_⟩
    dsimp only [o, o']
    rw [Nat.add_sub_cancel_left]
  · intro e he a ha
    obtain ⟨k, hk, rfl⟩ := (sysOf_edg hi).mp he
    dsimp only [o, o']
    rw [Nat.add_sub_cancel_left, vecs_ends, vecs_ends, (ends_get hi hk).1, (ends_get hi hk).2, (ends_get hi' (hπ k hk)).1,
      (ends_get hi' (hπ k hk)).2]
    exact congrFun (hget k hk).1 ⟨a, ha⟩
  · intro e he
    have hb := edg_lt_bonds hi he
    obtain ⟨k, hk, rfl⟩ := (sysOf_edg hi).mp he
    have hb' : o' + π k < (bonds A' L' rc ns').length :=
      edg_lt_bonds (mt := mt) (ix := ix') hi' ((sysOf_edg hi').mpr ⟨π k, hπ k hk, rfl⟩)
    dsimp only [o, o']
    rw [Nat.add_sub_cancel_left, sysOf_nty hb, sysOf_nty hb', (ends_get hi hk).2, (ends_get hi' (hπ k hk)).2]
    exact (hget k hk).2.1
  · intro e he
    obtain ⟨k, hk, rfl⟩ := (sysOf_edg hi).mp he
    dsimp only [o, o']
    rw [Nat.add_sub_cancel_left, (ends_get hi hk).2, (ends_get hi' (hπ k hk)).2]
    exact (hget k hk).2.2

/-! ## Sums over atoms -/

theorem sum_nodes (ns : List ℕ) (g : ℕ → ℝ) : ∑ i ∈ Finset.range ns.length, g (nthN ns i) = (ns.map g).sum := by
  induction ns with
  | nil => simp
  | cons a l ih =>
    rw [List.length_cons, Finset.sum_range_succ', List.map_cons, List.sum_cons, ← ih, add_comm]
    rfl

theorem sum_flatMap (np : ℕ) (l : ℕ → List ℕ) (g : ℕ → ℝ) :
    (((List.range np).flatMap l).map g).sum = ∑ p ∈ Finset.range np, ((l p).map g).sum := by
  induction np with
  | zero => simp
  | succ n ih => rw [List.range_succ, List.flatMap_append, List.map_append, List.sum_append, ih, Finset.sum_range_succ]; simp

theorem nthN_getElem {l : List ℕ} {i : ℕ} (h : i < l.length) : nthN l i = l[i] := by simp [nthN, h]

theorem rank_get {l : List ℕ} (hd : l.Nodup) {i : ℕ} (hi : i < l.length) : rank l l[i] = i := hd.idxOf_getElem i hi

theorem rank_lt {l : List ℕ} {a : ℕ} (h : a ∈ l) : rank l a < l.length := List.idxOf_lt_length_iff.mpr h

theorem get_rank {l : List ℕ} {a : ℕ} (h : a ∈ l) : l[rank l a]'(rank_lt h) = a := List.getElem_idxOf _

variable {np : ℕ} {As : ℕ → Atoms} {Ls : ℕ → NList} {κ : ℕ → ℕ → ℕ} {nodes : ℕ → List ℕ} {A0 : Atoms} {L0 : NList}

/-- Sum over the listed atoms of all processes. -/
theorem Parts.sum (h : Parts np As Ls κ nodes A0 L0 rc mt) (g : ℕ → ℝ) :
    ∑ p ∈ Finset.range np, ((centres (Ls p)).map (fun i => g (κ p i))).sum = ((centres L0).map g).sum := by
  rw [← (h.once.map g).sum_eq, sum_flatMap]
  refine Finset.sum_congr rfl (fun p _ => ?_)
  rw [List.map_map]
  rfl

theorem Parts.mem (h : Parts np As Ls κ nodes A0 L0 rc mt) {p i : ℕ} (hp : p < np) (hi : i ∈ centres (Ls p)) : κ p i ∈ centres L0 :=
  h.once.subset (List.mem_flatMap.mpr ⟨p, List.mem_range.mpr hp, List.mem_map.mpr ⟨i, hi, rfl⟩⟩)

theorem Parts.nbr (h : Parts np As Ls κ nodes A0 L0 rc mt) (hI : ImagesOk A0 L0) {p i j : ℕ} (hp : p < np) (hi : i ∈ nodes p)
    (hc : κ p i ∈ centres L0) (hj : j ∈ nbrs (As p) (Ls p) rc i) : κ p j ∈ centres L0 := by
  have h1 : (fun c : Fin 3 => disp (As p) i j c, species mt (As p) j, κ p j) ∈ view A0 L0 rc mt (original A0) (κ p i) :=
    (h.same p hp i hi).subset (List.mem_map.mpr ⟨j, hj, rfl⟩)
  obtain ⟨j0, h2, h3⟩ := List.mem_map.mp h1
  have h4 : original A0 j0 = κ p j := congrArg (fun q => q.2.2) h3
  rw [← h4]
  exact original_mem hI hc (mem_nbrs_listed h2)

/-- Environment of a node of process `p` and of its original. -/
theorem Parts.env (h : Parts np As Ls κ nodes A0 L0 rc mt) {p : ℕ} (hp : p < np) (ix : ℕ → ℕ) {ii : ℕ}
    (hi : ii < (nodes p).length) (hc : κ p (nodes p)[ii] ∈ centres L0) :
    ∃ σ, SameEnv (sysOf (As p) (Ls p) rc mt (nodes p) ix) (vecs (As p) (bonds (As p) (Ls p) rc (nodes p))) (periodic A0 L0 rc mt)
        (bondVecs A0 L0 rc) ii (rank (centres L0) (κ p (nodes p)[ii])) σ ∧
      ∀ e ∈ (sysOf (As p) (Ls p) rc mt (nodes p) ix).edg ii,
        original A0 (endB A0 L0 rc (centres L0) (σ e)) = κ p (endB (As p) (Ls p) rc (nodes p) e) := by
  have hm : (nodes p)[ii] ∈ nodes p := List.getElem_mem hi
  refine sameEnv_of_view hi (rank_lt hc) ?_ ?_
  · rw [get_rank hc]; exact h.spec p hp _ hm
  · rw [get_rank hc]; exact h.same p hp _ hm

theorem SameEnv.inTable {T T' : Sys} {X X' : ℕ → ℕ → ℝ} {i i' : ℕ} {σ : ℕ → ℕ} (h : SameEnv T X T' X' i i' σ) (hi' : i' < T'.N)
    (hX : Inside f T' X') {e : ℕ} (he : e ∈ T.edg i) : InTable f (len (X e)) := by
  rw [← len_congr (h.vec e he)]
  exact hX _ (edg_lt hi' (h.bij.1 he))

/-- Process systems are inside the tables and have non-zero normalisations if the whole system does. -/
theorem Parts.inside (h : Parts np As Ls κ nodes A0 L0 rc mt) {p : ℕ} (hp : p < np) (hc : ∀ i ∈ nodes p, κ p i ∈ centres L0)
    (hX : Inside f (periodic A0 L0 rc mt) (bondVecs A0 L0 rc)) (ix : ℕ → ℕ) :
    Inside f (sysOf (As p) (Ls p) rc mt (nodes p) ix) (vecs (As p) (bonds (As p) (Ls p) rc (nodes p))) := by
  intro e he
  obtain ⟨h1, h2⟩ := owner_spec he
  obtain ⟨σ, h3, _⟩ := h.env hp ix h1 (hc _ (List.getElem_mem h1))
  exact SameEnv.inTable h3 (rank_lt (hc _ (List.getElem_mem h1))) hX h2

theorem Parts.scales (h : Parts np As Ls κ nodes A0 L0 rc mt) {p : ℕ} (hp : p < np) (hc : ∀ i ∈ nodes p, κ p i ∈ centres L0)
    (hX : Props.ScalesNonzero f sph (periodic A0 L0 rc mt) (bondVecs A0 L0 rc)) (ix : ℕ → ℕ) :
    Props.ScalesNonzero f sph (sysOf (As p) (Ls p) rc mt (nodes p) ix) (vecs (As p) (bonds (As p) (Ls p) rc (nodes p))) := by
  intro i hi
  obtain ⟨σ, h3, _⟩ := h.env hp ix hi (hc _ (List.getElem_mem hi))
  have hr := rank_lt (hc _ (List.getElem_mem hi))
  rw [← h3.s0 hi hr, ← h3.s1 hi hr]
  exact hX _ hr

/-! ## Displacements -/

/-- Environments along consistent displacements of the bond vectors. -/
theorem Parts.envDir (h : Parts np As Ls κ nodes A0 L0 rc mt) {p : ℕ} (hp : p < np) (ix : ℕ → ℕ)
    {u u0 : ℕ → ℕ → ℝ} {ψ : ℕ → (Fin 3 → ℝ) → ℕ → ℕ → ℝ}
    (hψ : ∀ i ∈ nodes p, ∀ j ∈ listed (Ls p) i, ∀ c < 3, u j c - u i c = ψ (κ p i) (fun c => disp (As p) i j c) (κ p j) c)
    (hψ0 : ∀ b ∈ centres L0, ∀ j ∈ listed L0 b, ∀ c < 3, u0 j c - u0 b c = ψ b (fun c => disp A0 b j c) (original A0 j) c)
    (τ : ℝ) {ii : ℕ} (hi : ii < (nodes p).length) (hc : κ p (nodes p)[ii] ∈ centres L0) :
    ∃ σ, SameEnv (sysOf (As p) (Ls p) rc mt (nodes p) ix)
        (fun e a => vecs (As p) (bonds (As p) (Ls p) rc (nodes p)) e a + τ * edgeDir (As p) (Ls p) rc (nodes p) u e a) (periodic A0 L0 rc mt)
        (fun e a => bondVecs A0 L0 rc e a + τ * edgeDir A0 L0 rc (centres L0) u0 e a) ii (rank (centres L0) (κ p (nodes p)[ii])) σ ∧
      ∀ e ∈ (sysOf (As p) (Ls p) rc mt (nodes p) ix).edg ii,
        original A0 (endB A0 L0 rc (centres L0) (σ e)) = κ p (endB (As p) (Ls p) rc (nodes p) e) := by
  obtain ⟨σ, e1, e2⟩ := h.env hp ix hi hc
  refine ⟨σ, ⟨e1.typ, e1.bij, fun e he a ha => ?_, e1.nty⟩, e2⟩
  have hb := edg_lt_bonds hi he
  have he' := e1.bij.1 he
  have hb' : σ e < (bonds A0 L0 rc (centres L0)).length := edg_lt_bonds (ns := centres L0) (rank_lt hc) he'
  have hm := ends_mem hb
  have hm' := ends_mem hb'
  have hA : endA (As p) (Ls p) rc (nodes p) e = (nodes p)[ii] := by
    obtain ⟨k, hk, rfl⟩ := (sysOf_edg hi).mp he
    exact (ends_get hi hk).1
  have hA0 : endA A0 L0 rc (centres L0) (σ e) = κ p (nodes p)[ii] := by
    obtain ⟨k, hk, hk'⟩ := (sysOf_edg (rank_lt hc)).mp he'
    rw [hk', (ends_get (rank_lt hc) hk).1, get_rank hc]
  have hV : (fun c : Fin 3 => disp A0 (endA A0 L0 rc (centres L0) (σ e)) (endB A0 L0 rc (centres L0) (σ e)) c)
      = fun c : Fin 3 => disp (As p) (endA (As p) (Ls p) rc (nodes p) e) (endB (As p) (Ls p) rc (nodes p) e) c :=
    funext (fun c => e1.vec e he c c.2)
  have hD : edgeDir A0 L0 rc (centres L0) u0 (σ e) a = edgeDir (As p) (Ls p) rc (nodes p) u e a := by
    unfold edgeDir
    rw [hψ _ hm.1 _ (mem_nbrs_listed hm.2) a ha, hψ0 _ hm'.1 _ (mem_nbrs_listed hm'.2) a ha, hV, e2 e he, hA0, hA]
  change bondVecs A0 L0 rc (σ e) a + τ * _ = _
  rw [e1.vec e he a ha, hD]

end Verif.Lammps
