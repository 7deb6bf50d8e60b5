import Verif.Lemmas.Lammps.Single
import Verif.Lemmas.Lammps.NoMpi
import Verif.Lemmas.MACE.Part

/-! # Evaluation in `compute_no_mpi_message_passing` -/

namespace Verif.Lammps
open Verif.MACE Verif.Spec

variable {A : Atoms} {L : NList} {rc : ℝ} {mt : List ℕ} {w : Work}
variable {f : File} {sph : ℝ → ℝ → ℝ → ℕ → ℝ} {dsph : ℝ → ℝ → ℝ → ℕ → ℕ → ℝ} {P : Params ℝ}

theorem sysOf_type {ns : List ℕ} {ix : ℕ → ℕ} {i : ℕ} (hi : i < ns.length) :
    nthN (sysOf A L rc mt ns ix).types i = species mt A ns[i] := by simp [sysOf, nthN, hi]

theorem sysOf_idx {ns : List ℕ} {ix : ℕ → ℕ} {e : ℕ} (he : e < (bonds A L rc ns).length) :
    nthN (sysOf A L rc mt ns ix).idx e = ix (endB A L rc ns e) := by simp [sysOf, nthN, endB, he]

theorem sysOf_nty {ns : List ℕ} {ix : ℕ → ℕ} {e : ℕ} (he : e < (bonds A L rc ns).length) :
    nthN (sysOf A L rc mt ns ix).ntypes e = species mt A (endB A L rc ns e) := by simp [sysOf, nthN, endB, he]

theorem sysOf_in {ns : List ℕ} {ix : ℕ → ℕ} {NH : ℕ} (hA : AtomsOk A mt f.nT) (hns : ∀ i ∈ ns, EntryOk A L i)
    (hix : ∀ i ∈ ns, ∀ j ∈ nbrs A L rc i, ix j < NH) : SysIn f (sysOf A L rc mt ns ix) NH := by
  have hE : (sysOf A L rc mt ns ix).E = (bonds A L rc ns).length := sysOf_E _ _
  refine ⟨by simp [sysOf], fun i hi => ?_, by simp [sysOf], by rw [hE]; simp [sysOf], fun e he => ?_,
    by rw [hE]; simp [sysOf], fun e he => ?_⟩
  · have hi' : i < ns.length := hi
    rw [sysOf_type hi']
    exact species_lt hA (hns _ (List.getElem_mem hi')).lt
  · rw [hE] at he
    have h1 := ends_mem he
    rw [sysOf_idx he]
    exact hix _ h1.1 _ h1.2
  · rw [hE] at he
    have h1 := ends_mem he
    rw [sysOf_nty he]
    exact species_lt hA (nbrs_lt (hns _ h1.1) h1.2)

theorem all_entry (hL : ListOk A L) (hH : ∀ j ∈ halo A L rc, EntryOk A L j) : ∀ i ∈ allNodes A L rc, EntryOk A L i := by
  intro i hi
  rcases List.mem_append.mp hi with h | h
  · exact hL.entry i h
  · exact hH i h

theorem all_length (hL : ListOk A L) : (allNodes A L rc).length = L.inum + (halo A L rc).length := by
  rw [allNodes, List.length_append, centres_length hL]

/-- Numbering of the neighbours: position among the nodes, `0` for atoms which are not nodes. -/
structure IxOk (A : Atoms) (L : NList) (rc : ℝ) (ix : ℕ → ℕ) : Prop where
  mem : ∀ j ∈ allNodes A L rc, ix j = rank (allNodes A L rc) j
  not_mem : ∀ j, j ∉ allNodes A L rc → ix j = 0

theorem all_in {ix : ℕ → ℕ} (hA : AtomsOk A mt f.nT) (hL : ListOk A L) (hH : ∀ j ∈ halo A L rc, EntryOk A L j)
    (hx : IxOk A L rc ix) : SysOk f (sysOf A L rc mt (allNodes A L rc) ix) := by
  refine sysOf_in hA (all_entry hL hH) (fun i hi j _ => ?_)
  change ix j < (allNodes A L rc).length
  by_cases h : j ∈ allNodes A L rc
  · rw [hx.mem j h]
    exact List.idxOf_lt_length_iff.mpr h
  · rw [hx.not_mem j h]
    exact List.length_pos_of_mem hi

/-- The first layer and second layer evaluated on different numbers of nodes. -/
theorem evalPart {T : Sys} {X : ℕ → ℕ → ℝ} {nl : ℕ} (hf : FileOk f) (hT : SysOk f T) (hP : Loaded f sph dsph P) (hX : Inside f T X)
    (hl : nl ≤ T.N) {s : State ℝ} (hs : StOk f s) :
    ∃ s0 s1 s2 s3, startMace f.zbl P { T.graph X with N := nl } s = some s0 ∧ seg1 P (T.graph X) s0 = some s1 ∧
      seg2 P { T.graph X with N := nl } s1 = some s2 ∧ seg3 P (T.graph X) s2 = some s3 ∧
      s3.nodeEnergies = tab nl (energy (netOf f) (confOf f sph T X)) ∧
      s3.nodeForces = tab2 T.E 3 (forcePart f sph dsph T X nl (h1 (netOf f) (confOf f sph T X))
        (H1adj (netOf f) (confOf f sph T X) nl (h1 (netOf f) (confOf f sph T X)) (roGrad f))) ∧ StOk f s3 := by
  have hg : GOk (T.graph X) f.nT T.N (confOf f sph T X) (nthN T.nn) (dconfOf f dsph T X).X (dconfOf f dsph T X).R :=
    graph_ok hT le_rfl
  have hfe : FeatOk P (netOf f) (T.graph X) f.phil.length (confOf f sph T X) (dconfOf f dsph T X) := feat_ok hf hT hP hX
  have hEx : (T.graph X).Ex = T.E := by rw [graph_gx]; exact gx_Ex
  have e0 := startMace_spec (X := X) hf hT hP hl s
  obtain ⟨s1, e1, o1⟩ := seg1_spec (s := { s with
      nodeEnergies := tab nl (confOf f sph T X).pairE
      nodeForces := tab2 T.E 3 (fun e a => if e < off T.nn nl then zblForce f T X e a else 0) }) hP.wok hg hfe hs.P0
  have hgl : GOk { T.graph X with N := nl } f.nT T.N (confOf f sph T X) (nthN T.nn) (dconfOf f dsph T X).X (dconfOf f dsph T X).R :=
    hg.restrict hl (fun e he => hg.nbr_lt e (lt_of_lt_of_le he (off_mono _ hl)))
  obtain ⟨s2, e2, o2⟩ := seg2_spec (s := s1) (NH := T.N) (E := (confOf f sph T X).pairE)
    (F := fun e a => if e < off T.nn nl then zblForce f T X e a else 0) hP.wok hgl hl (hfe.restrict hl)
    (by rw [hP.ex]; exact ro_ok f) (by rw [o1.P1]; exact hs.P1) (by rw [o1.ro2]; exact hs.ro2) o1.H1 o1.nodeEnergies
    (by rw [o1.nodeForces]; change _ = tab2 (T.graph X).Ex 3 _; rw [hEx]) o1.Y o1.Yg
  obtain ⟨s3, e3, f1, f2, f3, f4, f5⟩ := seg3_spec (s := s2) (NH := T.N) hP.wok hg le_rfl hfe (by rw [o2.A0, o1.A0]) (by rw [o2.M0, o1.M0])
    (by rw [o2.M0g]; exact o1.M0g) o2.H1a (by rw [o2.R0]; exact o1.R0) (by rw [o2.R0d]; exact o1.R0d) o2.nodeForces
    (by rw [o2.Y]; exact o1.Y) (by rw [o2.Yg]; exact o1.Yg)
  refine ⟨_, s1, s2, s3, e0, e1, e2, e3, by rw [f2, o2.nodeEnergies]; rfl, ?_, ?_, ?_, ?_⟩
  · rw [f1, hEx]
    exact part_forces hl
  · rw [f3, o2.P0]; exact o1.P0
  · rw [f4]; exact o2.P1
  · rw [f5]; exact o2.ro2

theorem noMpi_segs (zbl : Option ZBLModel.ZBL) (fl : Flags) (old : List ℕ) (s : State ℝ) (t : Tally) :
    computeNoMpi zbl P rc mt fl A L old w s t = (buildNoMpi rc mt A L old w).bind (fun q =>
      (startMace zbl P (q.2.graph L.inum) s).bind (fun s => (seg1 P (q.2.graph (L.inum + q.1)) s).bind (fun s =>
        (seg2 P (q.2.graph L.inum) s).bind (fun s => (seg3 P (q.2.graph (L.inum + q.1)) s).bind (fun s =>
          (finish fl L.inum (L.inum + q.1) q.2 s.nodeEnergies s.nodeForces t).bind (fun t => some (q.2, s, t))))))) := by
  unfold computeNoMpi seg1 seg2 seg3
  simp only [Option.bind_eq_bind, Option.bind_assoc, Option.pure_def]

/-- The nodes and bond vectors of a process in this mode. -/
noncomputable abbrev allSys (A : Atoms) (L : NList) (rc : ℝ) (mt : List ℕ) (ix : ℕ → ℕ) : Sys := sysOf A L rc mt (allNodes A L rc) ix

noncomputable abbrev allVecs (A : Atoms) (L : NList) (rc : ℝ) : ℕ → ℕ → ℝ := vecs A (bonds A L rc (allNodes A L rc))

/-- Force of a process on edge `e`. -/
noncomputable def noMpiForce (f : File) (sph : ℝ → ℝ → ℝ → ℕ → ℝ) (dsph : ℝ → ℝ → ℝ → ℕ → ℕ → ℝ) (T : Sys) (X : ℕ → ℕ → ℝ) (nl : ℕ) :
    ℕ → ℕ → ℝ :=
  forcePart f sph dsph T X nl (h1 (netOf f) (confOf f sph T X))
    (H1adj (netOf f) (confOf f sph T X) nl (h1 (netOf f) (confOf f sph T X)) (roGrad f))

theorem computeNoMpi_spec (hf : FileOk f) (hP : Loaded f sph dsph P) (hA : AtomsOk A mt f.nT) (hL : ListOk A L)
    (hH : ∀ j ∈ halo A L rc, EntryOk A L j) (hX : ∀ ix, IxOk A L rc ix → Inside f (allSys A L rc mt ix) (allVecs A L rc))
    {s : State ℝ} (hs : StOk f s) (old : List ℕ) (w : Work) {fl : Flags} (hv : fl.vAtom = false) {t : Tally} {M m : ℕ}
    {f0 : ℕ → ℕ → ℝ} {v0 : ℕ → ℝ} (hf0 : t.f = tab2 M 3 f0) (hv0 : t.virial = tab m v0) (hM : A.nlocal + A.nghost ≤ M) (hm : 6 ≤ m)
    (hea : L.inum ≤ t.eatom.length) :
    ∃ w' s' ix, IxOk A L rc ix ∧ computeNoMpi f.zbl P rc mt fl A L old w s t = some (w', s',
      { eng := if fl.eGlobal then t.eng + ∑ i ∈ Finset.range L.inum,
          energy (netOf f) (confOf f sph (allSys A L rc mt ix) (allVecs A L rc)) i else t.eng
        eatom := if fl.eAtom then tab t.eatom.length (fun i => if i < L.inum then
          energy (netOf f) (confOf f sph (allSys A L rc mt ix) (allVecs A L rc)) i else nth t.eatom i) else t.eatom
        f := tab2 M 3 (fun a c => f0 a c + ∑ e ∈ Finset.range (bonds A L rc (allNodes A L rc)).length,
          noMpiForce f sph dsph (allSys A L rc mt ix) (allVecs A L rc) L.inum e c
            * ((if a = endB A L rc (allNodes A L rc) e then 1 else 0) - if a = endA A L rc (allNodes A L rc) e then 1 else 0))
        virial := if fl.vGlobal then tab m (fun k => v0 k + if k < 6 then
          ∑ e ∈ Finset.range (bonds A L rc (allNodes A L rc)).length,
            1 / 2 * (allVecs A L rc e (voigt k).1 * noMpiForce f sph dsph (allSys A L rc mt ix) (allVecs A L rc) L.inum e (voigt k).2
              + allVecs A L rc e (voigt k).2 * noMpiForce f sph dsph (allSys A L rc mt ix) (allVecs A L rc) L.inum e (voigt k).1)
            else 0) else tab m v0 }) ∧ StOk f s' := by
  obtain ⟨w', b1, b2, b3, ix, x1, x2, b4⟩ := buildNoMpi_spec (rc := rc) hA hL hH old w
  have hx : IxOk A L rc ix := ⟨x1, x2⟩
  have hT := all_in (mt := mt) hA hL hH hx
  have hlen := all_length (rc := rc) hL
  have hl : L.inum ≤ (allSys A L rc mt ix).N := by change _ ≤ (allNodes A L rc).length; omega
  have hE : (allSys A L rc mt ix).E = (bonds A L rc (allNodes A L rc)).length := sysOf_E _ _
  obtain ⟨s0, s1, s2, s3, e0, e1, e2, e3, e4, e5, e6⟩ := evalPart hf hT hP (hX ix hx) hl hs
  refine ⟨w', s3, ix, hx, ?_, e6⟩
  have hall : w'.graph (L.inum + (halo A L rc).length) = (allSys A L rc mt ix).graph (allVecs A L rc) := by rw [← hlen]; exact b4
  have hloc : w'.graph L.inum = { (allSys A L rc mt ix).graph (allVecs A L rc) with N := L.inum } := by rw [← hall]; rfl
  rw [noMpi_segs, b1, Option.bind_some]
  dsimp only
  rw [hall, hloc, e0, Option.bind_some, e1, Option.bind_some, e2, Option.bind_some, e3, Option.bind_some]
  have hxyz : w'.xyz = tab2 (bonds A L rc (allNodes A L rc)).length 3 (vecs A (bonds A L rc (allNodes A L rc))) := by
    have := congrArg Graph.xyz b4
    change w'.xyz = tab2 _ 3 _ at this
    rw [this]
    congr 1
  have hnn : w'.nn = (allNodes A L rc).map (fun i => (nbrs A L rc i).length) := congrArg Graph.nn b4
  have hfin := finish_eq (A := A) (L := L) (rc := rc) (ns := allNodes A L rc) (jOf := fun j => j) (nE := L.inum) (m := m) (M := M)
    (En := s3.nodeEnergies) (F := noMpiForce f sph dsph (allSys A L rc mt ix) (allVecs A L rc) L.inum) (f0 := f0) (v0 := v0)
    (eng := t.eng) (ea := t.eatom) b2 hnn b3 hxyz (fun i hi => by have := (all_entry hL hH i hi).lt; omega)
    (fun i hi j hj => by have := nbrs_lt (all_entry hL hH i hi) hj; omega) (by rw [e4]; simp) hea hm hv
  rw [← hE] at hfin
  unfold noMpiForce at hfin
  rw [← e5, ← hf0, ← hv0, hE, hlen] at hfin
  have ht : (⟨t.eng, t.eatom, t.f, t.virial⟩ : Tally) = t := rfl
  rw [ht] at hfin
  rw [hfin]
  simp only [Option.bind_some]
  have hsum : ∑ i ∈ Finset.range L.inum, nth s3.nodeEnergies i
      = ∑ i ∈ Finset.range L.inum, energy (netOf f) (confOf f sph (allSys A L rc mt ix) (allVecs A L rc)) i :=
    Finset.sum_congr rfl (fun i hi => by rw [e4, nth_tab (Finset.mem_range.mp hi)])
  have hea2 : tab t.eatom.length (fun i => if i < L.inum then nth s3.nodeEnergies i else nth t.eatom i)
      = tab t.eatom.length (fun i => if i < L.inum then
          energy (netOf f) (confOf f sph (allSys A L rc mt ix) (allVecs A L rc)) i else nth t.eatom i) := by
    apply tab_congr
    intro i _
    by_cases h : i < L.inum
    · rw [if_pos h, if_pos h, e4, nth_tab h]
    · rw [if_neg h, if_neg h]
  rw [hsum, hea2, hv0]
  rfl

end Verif.Lammps
