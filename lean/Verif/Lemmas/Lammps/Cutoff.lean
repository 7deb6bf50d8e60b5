import Verif.Lemmas.Lammps.Decomp
import Verif.Lemmas.Lammps.Single
import Mathlib.Data.Nat.Pairing

/-!
# The energy as a function of all listed pairs

The pair style drops pairs beyond the cutoff, so its graph changes when a pair crosses.  `wide` is a configuration whose edges are all
listed pairs, with radial features multiplied by a weight; with weight one inside and zero outside the cutoff it has the same energies.
-/

namespace Verif.Lammps
open Verif.MACE Verif.Spec

section wide
variable (f : File) (sph : ℝ → ℝ → ℝ → ℕ → ℝ) (A : Atoms) (L : NList) (mt : List ℕ)

/-- Radial functions of a pair of types. -/
noncomputable def prof0 (t t' l k : ℕ) : ℝ → ℝ :=
  hermite f.splH (nth (row (tbl f.vals0 (pairPos f.nT t t')) (l * f.numChannels + k)))
    (nth (row (tbl f.ders0 (pairPos f.nT t t')) (l * f.numChannels + k)))
noncomputable def prof1 (t t' l k : ℕ) : ℝ → ℝ :=
  hermite f.splH (nth (row (tbl f.vals1 (pairPos f.nT t t')) (l * f.numChannels + k)))
    (nth (row (tbl f.ders1 (pairPos f.nT t t')) (l * f.numChannels + k)))
noncomputable def dens0 (t t' : ℕ) : ℝ → ℝ :=
  hermite f.A0h (nth (row f.A0vals (pairPos f.nT t t'))) (nth (row f.A0ders (pairPos f.nT t t')))
noncomputable def dens1 (t t' : ℕ) : ℝ → ℝ :=
  hermite f.A1h (nth (row f.A1vals (pairPos f.nT t t'))) (nth (row f.A1ders (pairPos f.nT t t')))
noncomputable def repul (z : ZBLModel.ZBL) (t t' : ℕ) : ℝ → ℝ :=
  zblEnergy z.aExp z.aPre (fun k => nth z.c k) (nth z.rad (nthN f.atomicNumbers t) + nth z.rad (nthN f.atomicNumbers t')) z.p.toNat
    (nthN f.atomicNumbers t) (nthN f.atomicNumbers t')

/-- Ends of the listed pair with number `e = pair ii p`. -/
def wideA (e : ℕ) : ℕ := nthN (centres L) e.unpair.1
def wideB (e : ℕ) : ℕ := nthN (listed L (wideA L e)) e.unpair.2

/-- All listed pairs as edges, with weights `cut` and vectors `V`. -/
noncomputable def wide (cut : ℕ → ℝ) (V : ℕ → ℕ → ℝ) : Conf ℝ where
  typ i := species mt A (nthN (centres L) i)
  edg i := (Finset.range (listed L (nthN (centres L) i)).length).image (Nat.pair i)
  nbr e := rank (centres L) (original A (wideB L e))
  nty e := species mt A (wideB L e)
  R0 e l k := cut e * prof0 f (species mt A (wideA L e)) (species mt A (wideB L e)) l k (len (V e))
  R1 e l k := cut e * prof1 f (species mt A (wideA L e)) (species mt A (wideB L e)) l k (len (V e))
  Y e lm := sph (V e 2) (V e 0) (V e 1) lm * (2 * Real.sqrt Real.pi)
  s0 i := if f.A0scaled then 1 + ∑ e ∈ (Finset.range (listed L (nthN (centres L) i)).length).image (Nat.pair i),
    cut e * dens0 f (species mt A (wideA L e)) (species mt A (wideB L e)) (len (V e)) else 1
  s1 i := if f.A1scaled then 1 + ∑ e ∈ (Finset.range (listed L (nthN (centres L) i)).length).image (Nat.pair i),
    cut e * dens1 f (species mt A (wideA L e)) (species mt A (wideB L e)) (len (V e)) else 1
  pairE i := match f.zbl with
    | some z => ∑ e ∈ (Finset.range (listed L (nthN (centres L) i)).length).image (Nat.pair i),
      cut e * repul f z (species mt A (wideA L e)) (species mt A (wideB L e)) (len (V e))
    | none => 0

open Classical in
/-- One for pairs closer than the cutoff. -/
noncomputable def cutInd (rc : ℝ) (e : ℕ) : ℝ :=
  if ∑ c ∈ Finset.range 3, disp A (wideA L e) (wideB L e) c ^ 2 < rc ^ 2 then 1 else 0

end wide

variable {A : Atoms} {L : NList} {rc : ℝ} {mt : List ℕ} {f : File} {sph : ℝ → ℝ → ℝ → ℕ → ℝ}

theorem sum_filter_map (l : List ℕ) (p : ℕ → Prop) [DecidablePred p] (g : ℕ → ℝ) :
    ((l.filter (fun j => decide (p j))).map g).sum = (l.map (fun j => (if p j then 1 else 0) * g j)).sum := by
  induction l with
  | nil => rfl
  | cons a l ih =>
    by_cases h : p a
    · simp [h, ih]
    · simp [h, ih]

theorem wide_ends {ii p : ℕ} (hi : ii < (centres L).length) (hp : p < (listed L (centres L)[ii]).length) :
    wideA L (Nat.pair ii p) = (centres L)[ii] ∧ wideB L (Nat.pair ii p) = (listed L (centres L)[ii])[p] := by
  have h : wideA L (Nat.pair ii p) = (centres L)[ii] := by
    unfold wideA
    rw [Nat.unpair_pair]
    exact nthN_getElem hi
  refine ⟨h, ?_⟩
  unfold wideB
  rw [h, Nat.unpair_pair]
  exact nthN_getElem hp

/-- Sum over the edges of the graph as a weighted sum over the listed pairs. -/
theorem sum_wide {ix : ℕ → ℕ} {ii : ℕ} (hi : ii < (centres L).length) (G : ℕ → ℕ → ℝ) :
    ∑ e ∈ (sysOf A L rc mt (centres L) ix).edg ii, G (endA A L rc (centres L) e) (endB A L rc (centres L) e)
      = ∑ e ∈ (Finset.range (listed L (nthN (centres L) ii)).length).image (Nat.pair ii),
        cutInd A L rc e * G (wideA L e) (wideB L e) := by
  classical
  have hc : nthN (centres L) ii = (centres L)[ii] := nthN_getElem hi
  rw [Finset.sum_image (fun a _ b _ h => (Nat.pair_eq_pair.mp h).2), hc]
  have e1 : ∑ p ∈ Finset.range (listed L (centres L)[ii]).length,
      cutInd A L rc (Nat.pair ii p) * G (wideA L (Nat.pair ii p)) (wideB L (Nat.pair ii p))
      = ∑ p ∈ Finset.range (listed L (centres L)[ii]).length, (fun j =>
        (if ∑ c ∈ Finset.range 3, disp A (centres L)[ii] j c ^ 2 < rc ^ 2 then 1 else 0) * G (centres L)[ii] j)
          (nthN (listed L (centres L)[ii]) p) := by
    refine Finset.sum_congr rfl (fun p hp => ?_)
    have hp := Finset.mem_range.mp hp
    unfold cutInd
    rw [(wide_ends hi hp).1, (wide_ends hi hp).2, nthN_getElem hp]
  refine Eq.trans ?_ (e1.trans (sum_nodes (listed L (centres L)[ii]) (fun j =>
        (if ∑ c ∈ Finset.range 3, disp A (centres L)[ii] j c ^ 2 < rc ^ 2 then 1 else 0) * G (centres L)[ii] j))).symm
  rw [← sum_filter_map _ (fun j => ∑ c ∈ Finset.range 3, disp A (centres L)[ii] j c ^ 2 < rc ^ 2)]
  have e2 : (listed L (centres L)[ii]).filter (fun j => decide (∑ c ∈ Finset.range 3, disp A (centres L)[ii] j c ^ 2 < rc ^ 2))
      = nbrs A L rc (centres L)[ii] := by
    unfold nbrs
    congr!
  rw [e2]
  refine Eq.trans ?_ (sum_nodes (nbrs A L rc (centres L)[ii]) (G (centres L)[ii]))
  symm
  refine Finset.sum_bij (fun k _ => off ((centres L).map (fun i => (nbrs A L rc i).length)) ii + k) ?_ ?_ ?_ ?_
  · intro k hk
    exact (sysOf_edg hi).mpr ⟨k, Finset.mem_range.mp hk, rfl⟩
  · intro a _ b _ h
    omega
  · intro e he
    obtain ⟨k, hk, rfl⟩ := (sysOf_edg hi).mp he
    exact ⟨k, Finset.mem_range.mpr hk, rfl⟩
  · intro k hk
    have hk := Finset.mem_range.mp hk
    rw [(ends_get hi hk).1, (ends_get hi hk).2, nthN_getElem hk]

/-- Facts about an edge of node `ii`. -/
theorem edge_facts {ix : ℕ → ℕ} {ii e : ℕ} (hi : ii < (centres L).length) (he : e ∈ (sysOf A L rc mt (centres L) ix).edg ii) :
    nthN (sysOf A L rc mt (centres L) ix).types ((sysOf A L rc mt (centres L) ix).owner e) = species mt A (endA A L rc (centres L) e) ∧
    nthN (sysOf A L rc mt (centres L) ix).ntypes e = species mt A (endB A L rc (centres L) e) ∧
    nthN (sysOf A L rc mt (centres L) ix).idx e = ix (endB A L rc (centres L) e) ∧
    endA A L rc (centres L) e = (centres L)[ii] := by
  have hb := edg_lt_bonds hi he
  refine ⟨?_, sysOf_nty hb, sysOf_idx hb, ?_⟩
  · rw [owner_eq (show ii < (sysOf A L rc mt (centres L) ix).N from hi) he, sysOf_type hi]
    obtain ⟨k, hk, rfl⟩ := (sysOf_edg hi).mp he
    rw [(ends_get hi hk).1]
  · obtain ⟨k, hk, rfl⟩ := (sysOf_edg hi).mp he
    exact (ends_get hi hk).1

section same
variable (Vf : ℕ → ℕ → ℕ → ℝ)

/-- The configuration of the graph with vectors `Vf i j`. -/
noncomputable def narrow (f : File) (sph : ℝ → ℝ → ℝ → ℕ → ℝ) (A : Atoms) (L : NList) (rc : ℝ) (mt : List ℕ) (Vf : ℕ → ℕ → ℕ → ℝ) : Conf ℝ :=
  confOf f sph (periodic A L rc mt) (fun e => Vf (endA A L rc (centres L) e) (endB A L rc (centres L) e))

/-- All listed pairs, weight one inside the cutoff. -/
noncomputable def broad (f : File) (sph : ℝ → ℝ → ℝ → ℕ → ℝ) (A : Atoms) (L : NList) (rc : ℝ) (mt : List ℕ) (Vf : ℕ → ℕ → ℕ → ℝ) : Conf ℝ :=
  wide f sph A L mt (cutInd A L rc) (fun e => Vf (wideA L e) (wideB L e))

variable {ii : ℕ} (hi : ii < (centres L).length)
include hi

theorem broad_typ : (narrow f sph A L rc mt Vf).typ ii = (broad f sph A L rc mt Vf).typ ii := by
  change nthN (periodic A L rc mt).types ii = species mt A (nthN (centres L) ii)
  rw [periodic, sysOf_type hi, nthN_getElem hi]

theorem broad_phi0 (W : Net ℝ) (lm k : ℕ) : phi0 W (narrow f sph A L rc mt Vf) ii lm k = phi0 W (broad f sph A L rc mt Vf) ii lm k := by
  have := sum_wide (A := A) (rc := rc) (mt := mt) (ix := fun j => rank (centres L) (original A j)) hi (fun i j =>
    prof0 f (species mt A i) (species mt A j) (Nat.sqrt lm) k (len (Vf i j))
      * (sph (Vf i j 2) (Vf i j 0) (Vf i j 1) lm * (2 * Real.sqrt Real.pi)) * W.emb (species mt A j) k)
  unfold phi0
  refine Eq.trans (Finset.sum_congr rfl (fun e he => ?_)) (this.trans (Finset.sum_congr rfl (fun e _ => ?_)))
  · obtain ⟨h1, h2, _, _⟩ := edge_facts hi he
    simp only [narrow, confOf, edgePair, periodic, prof0]
    rw [h1, h2]
  · simp only [broad, wide]
    ring

theorem broad_phi1r (W : Net ℝ) (H : ℕ → ℕ → ℕ → ℝ) (q k : ℕ) :
    phi1r W (narrow f sph A L rc mt Vf) H ii q k = phi1r W (broad f sph A L rc mt Vf) H ii q k := by
  have := sum_wide (A := A) (rc := rc) (mt := mt) (ix := fun j => rank (centres L) (original A j)) hi (fun i j =>
    prof1 f (species mt A i) (species mt A j) (W.qp q) k (len (Vf i j))
      * (sph (Vf i j 2) (Vf i j 0) (Vf i j 1) (W.q1 q) * (2 * Real.sqrt Real.pi)) * H (rank (centres L) (original A j)) (W.q2 q) k)
  unfold phi1r
  refine Eq.trans (Finset.sum_congr rfl (fun e he => ?_)) (this.trans (Finset.sum_congr rfl (fun e _ => ?_)))
  · obtain ⟨h1, h2, h3, _⟩ := edge_facts hi he
    simp only [narrow, confOf, edgePair, periodic, prof1]
    rw [h1, h2, h3]
  · simp only [broad, wide]
    ring

theorem broad_s0 : (narrow f sph A L rc mt Vf).s0 ii = (broad f sph A L rc mt Vf).s0 ii := by
  have := sum_wide (A := A) (rc := rc) (mt := mt) (ix := fun j => rank (centres L) (original A j)) hi (fun i j =>
    dens0 f (species mt A i) (species mt A j) (len (Vf i j)))
  simp only [narrow, broad, confOf, wide]
  split
  · congr 1
    refine Eq.trans (Finset.sum_congr rfl (fun e he => ?_)) this
    obtain ⟨h1, h2, _, _⟩ := edge_facts hi he
    simp only [edgePair, periodic, dens0]
    rw [h1, h2]
  · rfl

theorem broad_s1 : (narrow f sph A L rc mt Vf).s1 ii = (broad f sph A L rc mt Vf).s1 ii := by
  have := sum_wide (A := A) (rc := rc) (mt := mt) (ix := fun j => rank (centres L) (original A j)) hi (fun i j =>
    dens1 f (species mt A i) (species mt A j) (len (Vf i j)))
  simp only [narrow, broad, confOf, wide]
  split
  · congr 1
    refine Eq.trans (Finset.sum_congr rfl (fun e he => ?_)) this
    obtain ⟨h1, h2, _, _⟩ := edge_facts hi he
    simp only [edgePair, periodic, dens1]
    rw [h1, h2]
  · rfl

theorem broad_pairE : (narrow f sph A L rc mt Vf).pairE ii = (broad f sph A L rc mt Vf).pairE ii := by
  simp only [narrow, broad, confOf, wide]
  cases f.zbl with
  | none => rfl
  | some z =>
    refine Eq.trans (Finset.sum_congr rfl (fun e he => ?_)) (sum_wide (A := A) (rc := rc) (mt := mt)
      (ix := fun j => rank (centres L) (original A j)) hi (fun i j => repul f z (species mt A i) (species mt A j) (len (Vf i j))))
    obtain ⟨h1, h2, _, _⟩ := edge_facts hi he
    simp only [zblEdge, periodic, repul]
    rw [h1, h2]

theorem broad_h1 (W : Net ℝ) (LM k : ℕ) : h1 W (narrow f sph A L rc mt Vf) ii LM k = h1 W (broad f sph A L rc mt Vf) ii LM k := by
  unfold h1 m0 a0s a0
  simp only [broad_phi0 Vf hi, broad_typ Vf hi, broad_s0 Vf hi]

theorem broad_nodeE (W : Net ℝ) (H : ℕ → ℕ → ℕ → ℝ) : nodeE W (narrow f sph A L rc mt Vf) H ii = nodeE W (broad f sph A L rc mt Vf) H ii := by
  unfold nodeE h2 m1 a1s a1 phi1
  simp only [broad_phi1r Vf hi, broad_typ Vf hi, broad_s1 Vf hi, broad_pairE Vf hi]

/-- Equal energies. -/
theorem broad_energy (hI : ImagesOk A L) (W : Net ℝ) : energy W (narrow f sph A L rc mt Vf) ii = energy W (broad f sph A L rc mt Vf) ii := by
  unfold energy
  rw [broad_nodeE Vf hi]
  have hh : ∀ v < (centres L).length, ∀ LM k, h1 W (narrow f sph A L rc mt Vf) v LM k = h1 W (broad f sph A L rc mt Vf) v LM k :=
    fun v hv LM k => broad_h1 Vf hv W LM k
  have hphi : ∀ q k, phi1r W (broad f sph A L rc mt Vf) (h1 W (narrow f sph A L rc mt Vf)) ii q k
      = phi1r W (broad f sph A L rc mt Vf) (h1 W (broad f sph A L rc mt Vf)) ii q k := by
    intro q k
    unfold phi1r
    refine Finset.sum_congr rfl (fun e he => ?_)
    have hn : (broad f sph A L rc mt Vf).nbr e < (centres L).length := by
      obtain ⟨p, hp, rfl⟩ := Finset.mem_image.mp he
      have hp := Finset.mem_range.mp hp
      rw [nthN_getElem hi] at hp
      change rank (centres L) (original A (wideB L (Nat.pair ii p))) < _
      rw [(wide_ends hi hp).2]
      exact rank_lt (original_mem hI (List.getElem_mem hi) (List.getElem_mem hp))
    rw [hh _ hn]
  unfold nodeE h2 m1 a1s a1 phi1
  simp only [hphi, hh ii hi]

end same

end Verif.Lammps
