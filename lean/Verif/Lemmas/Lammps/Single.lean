import Verif.Lemmas.Lammps.Results
import Verif.Props.MACE

/-! # The single-process mode -/

namespace Verif.Lammps
open Verif.MACE Verif.Spec

variable {A : Atoms} {L : NList} {rc : ℝ} {mt : List ℕ} {nT : ℕ} {w : Work}

theorem bonds_get {ns : List ℕ} {ii k : ℕ} (hi : ii < ns.length) (hk : k < (nbrs A L rc ns[ii]).length) :
    (bonds A L rc ns)[off (ns.map (fun i => (nbrs A L rc i).length)) ii + k]? = some (ns[ii], (nbrs A L rc ns[ii])[k]) := by
  have hoff : off (ns.map (fun i => (nbrs A L rc i).length)) ii = (bonds A L rc (ns.take ii)).length := by
    unfold off
    rw [bonds_length, List.map_take]
  have hsplit : ns = ns.take ii ++ (ns[ii] :: ns.drop (ii + 1)) := by
    rw [List.getElem_cons_drop, List.take_append_drop]
  rw [hoff]
  have hb : bonds A L rc ns = bonds A L rc (ns.take ii) ++ bonds A L rc (ns[ii] :: ns.drop (ii + 1)) := by
    rw [← bonds_append, ← hsplit]
  rw [hb, List.getElem?_append_right (by omega), Nat.add_sub_cancel_left]
  simp only [bonds, List.flatMap_cons]
  rw [List.getElem?_append_left (by simpa using hk)]
  simp [hk]

theorem bonds_mem {ns : List ℕ} {p : ℕ × ℕ} : p ∈ bonds A L rc ns ↔ p.1 ∈ ns ∧ p.2 ∈ nbrs A L rc p.1 := by
  unfold bonds
  rw [List.mem_flatMap]
  constructor
  · rintro ⟨i, hi, h⟩
    obtain ⟨j, hj, rfl⟩ := List.mem_map.mp h
    exact ⟨hi, hj⟩
  · rintro ⟨h1, h2⟩
    exact ⟨p.1, h1, List.mem_map.mpr ⟨p.2, h2, rfl⟩⟩

/-- Ends of edge `e`. -/
noncomputable def endA (A : Atoms) (L : NList) (rc : ℝ) (ns : List ℕ) (e : ℕ) : ℕ := ((bonds A L rc ns)[e]?.getD (0, 0)).1
noncomputable def endB (A : Atoms) (L : NList) (rc : ℝ) (ns : List ℕ) (e : ℕ) : ℕ := ((bonds A L rc ns)[e]?.getD (0, 0)).2

theorem ends_mem {ns : List ℕ} {e : ℕ} (he : e < (bonds A L rc ns).length) :
    endA A L rc ns e ∈ ns ∧ endB A L rc ns e ∈ nbrs A L rc (endA A L rc ns e) := by
  unfold endA endB
  rw [List.getElem?_eq_getElem he, Option.getD_some]
  exact bonds_mem.mp (List.getElem_mem he)

theorem vecs_ends {ns : List ℕ} (e c : ℕ) :
    vecs A (bonds A L rc ns) e c = disp A (endA A L rc ns e) (endB A L rc ns e) c := rfl

/-- The results for given energies and edge forces on a filled graph. -/
theorem finish_eq {ns : List ℕ} {jOf : ℕ → ℕ} {nE m M : ℕ} {En : List ℝ} {F f0 : ℕ → ℕ → ℝ} {v0 : ℕ → ℝ} {eng : ℝ} {ea : List ℝ}
    (hN : w.nodeI = ns) (hnn : w.nn = ns.map (fun i => (nbrs A L rc i).length))
    (hJ : w.neighJ = (bonds A L rc ns).map (fun p => jOf p.2))
    (hX : w.xyz = tab2 (bonds A L rc ns).length 3 (vecs A (bonds A L rc ns)))
    (hns : ∀ i ∈ ns, i < M) (hjs : ∀ i ∈ ns, ∀ j ∈ nbrs A L rc i, jOf j < M) (hE : nE ≤ En.length) (hea : nE ≤ ea.length)
    (hm : 6 ≤ m) {fl : Flags} (hv : fl.vAtom = false) :
    finish fl nE ns.length w En (tab2 (bonds A L rc ns).length 3 F) ⟨eng, ea, tab2 M 3 f0, tab m v0⟩ = some
      ⟨if fl.eGlobal then eng + ∑ i ∈ Finset.range nE, nth En i else eng,
       if fl.eAtom then tab ea.length (fun i => if i < nE then nth En i else nth ea i) else ea,
       tab2 M 3 (fun a c => f0 a c + ∑ e ∈ Finset.range (bonds A L rc ns).length,
        F e c * ((if a = jOf (endB A L rc ns e) then 1 else 0) - if a = endA A L rc ns e then 1 else 0)),
       if fl.vGlobal then tab m (fun k => v0 k + if k < 6 then ∑ e ∈ Finset.range (bonds A L rc ns).length,
        1 / 2 * (vecs A (bonds A L rc ns) e (voigt k).1 * F e (voigt k).2
          + vecs A (bonds A L rc ns) e (voigt k).2 * F e (voigt k).1) else 0) else tab m v0⟩ := by
  have hoff : off w.nn ns.length = (bonds A L rc ns).length := by rw [hnn]; exact bonds_nn ns
  have hlen : ns.length ≤ w.nn.length := by rw [hnn]; simp
  have hs := scatter_eq (M := M) (F := F) (f0 := f0) (src := endA A L rc ns) (dst := fun e => jOf (endB A L rc ns e)) hlen hoff
    (fun ii hii m hm => by
      refine ⟨ns[ii], by rw [hN, List.getElem?_eq_getElem hii], fun k hk => ?_⟩
      have hm' : m = (nbrs A L rc ns[ii]).length := by
        rw [hnn, List.getElem?_map, List.getElem?_eq_getElem hii] at hm
        exact (Option.some.inj hm).symm
      unfold endA
      rw [hnn, bonds_get hii (by omega)]
      rfl)
    (fun e he => by
      rw [hJ, List.getElem?_map]
      unfold endB
      rw [List.getElem?_eq_getElem he]
      rfl)
    (fun e he => hns _ (ends_mem he).1) (fun e he => hjs _ (ends_mem he).1 _ (ends_mem he).2)
  unfold finish
  simp only [hs, addEnergy_eq hE, putEatom_eq hE hea, hv]
  have hvir := virialLoop_eq (F := F) (v0 := v0) hlen hoff hX hm
  rw [hvir]
  cases fl.eGlobal <;> cases fl.eAtom <;> cases fl.vGlobal <;> simp

theorem periodic_ok {f : File} (hA : AtomsOk A mt f.nT) (hL : ListOk A L) (hI : ImagesOk A L) : SysOk f (periodic A L rc mt) := by
  have hE : (periodic A L rc mt).E = (bonds A L rc (centres L)).length := sysOf_E _ _
  refine ⟨by simp [periodic, sysOf], fun i hi => ?_, by simp [periodic, sysOf], by rw [hE]; simp [periodic, sysOf], fun e he => ?_,
    by rw [hE]; simp [periodic, sysOf], fun e he => ?_⟩
  · have hi' : i < (centres L).length := hi
    have : nthN (periodic A L rc mt).types i = species mt A (centres L)[i] := by
      simp [periodic, sysOf, nthN, hi']
    rw [this]
    exact species_lt hA (hL.entry _ (List.getElem_mem hi')).lt
  · rw [hE] at he
    have h1 := ends_mem he
    have : nthN (periodic A L rc mt).idx e = rank (centres L) (original A (endB A L rc (centres L) e)) := by
      simp [periodic, sysOf, nthN, endB, he]
    rw [this]
    exact List.idxOf_lt_length_iff.mpr (original_mem hI h1.1 (mem_nbrs_listed h1.2))
  · rw [hE] at he
    have h1 := ends_mem he
    have : nthN (periodic A L rc mt).ntypes e = species mt A (endB A L rc (centres L) e) := by
      simp [periodic, sysOf, nthN, endB, he]
    rw [this]
    exact species_lt hA (nbrs_lt (hL.entry _ h1.1) h1.2)

/-- Total energy of the periodic system. -/
noncomputable def Etot (f : File) (sph : ℝ → ℝ → ℝ → ℕ → ℝ) (L : NList) (rc : ℝ) (mt : List ℕ) (A : Atoms) : ℝ :=
  ∑ i ∈ Finset.range L.inum, energy (netOf f) (confOf f sph (periodic A L rc mt) (bondVecs A L rc)) i

variable {f : File} {sph : ℝ → ℝ → ℝ → ℕ → ℝ} {dsph : ℝ → ℝ → ℝ → ℕ → ℕ → ℝ} {P : Params ℝ}

theorem nth_tab {n : ℕ} {g : ℕ → ℝ} {i : ℕ} (h : i < n) : nth (tab n g) i = g i := by
  unfold nth; rw [getElem?_tab_lt h]; rfl

/-- The single-process `compute`. -/
theorem computeSingle_spec (hf : FileOk f) (hP : Loaded f sph dsph P) (hA : AtomsOk A mt f.nT) (hL : ListOk A L)
    (hI : ImagesOk A L) (hX : Inside f (periodic A L rc mt) (bondVecs A L rc)) {s : State ℝ} (hs : StOk f s) (w : Work)
    {fl : Flags} (hv : fl.vAtom = false) {t : Tally} {M m : ℕ} {f0 : ℕ → ℕ → ℝ} {v0 : ℕ → ℝ} (hf0 : t.f = tab2 M 3 f0)
    (hv0 : t.virial = tab m v0) (hM : A.nlocal ≤ M) (hm : 6 ≤ m) (hea : L.inum ≤ t.eatom.length) :
    ∃ w' s', computeSingle f.zbl P rc mt fl A L w s t = some (w', s',
      { eng := if fl.eGlobal then t.eng + Etot f sph L rc mt A else t.eng
        eatom := if fl.eAtom then tab t.eatom.length (fun i => if i < L.inum then
          energy (netOf f) (confOf f sph (periodic A L rc mt) (bondVecs A L rc)) i else nth t.eatom i) else t.eatom
        f := tab2 M 3 (fun a c => f0 a c + ∑ e ∈ Finset.range (bonds A L rc (centres L)).length,
          forceOf f sph dsph (periodic A L rc mt) (bondVecs A L rc) e c
            * ((if a = original A (endB A L rc (centres L) e) then 1 else 0) - if a = endA A L rc (centres L) e then 1 else 0))
        virial := if fl.vGlobal then tab m (fun k => v0 k + if k < 6 then ∑ e ∈ Finset.range (bonds A L rc (centres L)).length,
          1 / 2 * (bondVecs A L rc e (voigt k).1 * forceOf f sph dsph (periodic A L rc mt) (bondVecs A L rc) e (voigt k).2
            + bondVecs A L rc e (voigt k).2 * forceOf f sph dsph (periodic A L rc mt) (bondVecs A L rc) e (voigt k).1) else 0)
          else tab m v0 }) ∧ StOk f s' := by
  obtain ⟨w', h1, h2, h3, h4⟩ := buildSingle_spec (rc := rc) hA hL hI w
  obtain ⟨s', e1, e2, e3, e4⟩ := compute_spec hf (periodic_ok (rc := rc) hA hL hI) hP hX hs
  have hg : w'.graph L.inum = (periodic A L rc mt).graph (bondVecs A L rc) := h4
  have hN : (periodic A L rc mt).N = L.inum := centres_length hL
  have hE : (periodic A L rc mt).E = (bonds A L rc (centres L)).length := sysOf_E _ _
  refine ⟨w', s', ?_, e4⟩
  unfold computeSingle
  rw [h1]
  simp only [Option.bind_eq_bind, Option.bind_some]
  rw [hg, e1, Option.bind_some]
  have hx : w'.xyz = tab2 (bonds A L rc (centres L)).length 3 (vecs A (bonds A L rc (centres L))) := by
    have := congrArg Graph.xyz hg
    change w'.xyz = tab2 _ 3 _ at this
    rw [this, hE]; rfl
  have hnn : w'.nn = (centres L).map (fun i => (nbrs A L rc i).length) := congrArg Graph.nn hg
  have hfin := finish_eq (A := A) (L := L) (rc := rc) (ns := centres L) (jOf := original A) (nE := L.inum) (m := m) (M := M)
    (En := s'.nodeEnergies) (F := forceOf f sph dsph (periodic A L rc mt) (bondVecs A L rc)) (f0 := f0) (v0 := v0) (eng := t.eng)
    (ea := t.eatom) h2 hnn h3 hx (fun i hi => by have := hL.loc i hi; omega)
    (fun i hi j hj => by
      have := hL.loc _ (original_mem hI hi (mem_nbrs_listed hj))
      omega) (by rw [e2]; simp [hN]) hea hm hv
  rw [centres_length hL, ← hE, ← e3, ← hf0, ← hv0, hE] at hfin
  have ht : (⟨t.eng, t.eatom, t.f, t.virial⟩ : Tally) = t := rfl
  rw [ht] at hfin
  rw [hfin]
  simp only [Option.bind_some, Option.pure_def]
  have hsum : ∑ i ∈ Finset.range L.inum, nth s'.nodeEnergies i = Etot f sph L rc mt A := by
    unfold Etot
    refine Finset.sum_congr rfl (fun i hi => ?_)
    rw [e2, nth_tab (by rw [hN]; exact Finset.mem_range.mp hi)]
  have hea2 : tab t.eatom.length (fun i => if i < L.inum then nth s'.nodeEnergies i else nth t.eatom i)
      = tab t.eatom.length (fun i => if i < L.inum then
          energy (netOf f) (confOf f sph (periodic A L rc mt) (bondVecs A L rc)) i else nth t.eatom i) := by
    apply tab_congr
    intro i _
    by_cases h : i < L.inum
    · rw [if_pos h, if_pos h, e2, nth_tab (by rw [hN]; exact h)]
    · rw [if_neg h, if_neg h]
  rw [hsum, hea2, hv0]
  rfl

/-! ## Displacements -/

variable {u : ℕ → ℕ → ℝ} {τ : ℝ}

theorem pos_displaced (hA : AtomsOk A mt nT) {i c : ℕ} (hi : i < A.nlocal + A.nghost) (hc : c < 3) :
    pos (displaced A u τ) i c = pos A i c + τ * u i c := by
  have hx := hA.x
  unfold pos displaced
  have h : 3 * i + c < A.x.length := by omega
  change nth (tab A.x.length _) _ = _
  rw [nth_tab h, show (3 * i + c) / 3 = i by omega, show (3 * i + c) % 3 = c by omega]

theorem disp_displaced (hA : AtomsOk A mt nT) {i j c : ℕ} (hi : i < A.nlocal + A.nghost) (hj : j < A.nlocal + A.nghost)
    (hc : c < 3) : disp (displaced A u τ) i j c = disp A i j c + τ * (u j c - u i c) := by
  unfold disp
  rw [pos_displaced hA hi hc, pos_displaced hA hj hc]
  ring

theorem displaced_ok (hA : AtomsOk A mt nT) : AtomsOk (displaced A u τ) mt nT :=
  ⟨by simpa [displaced] using hA.x, hA.type, hA.typ, hA.mt⟩

theorem entry_displaced {i : ℕ} (h : EntryOk A L i) : EntryOk (displaced A u τ) L i := ⟨h.lt, h.num, h.first, h.len, h.nb⟩

theorem list_displaced (hL : ListOk A L) : ListOk (displaced A u τ) L :=
  ⟨hL.inum, hL.nodup, hL.loc, fun i hi => entry_displaced (hL.entry i hi)⟩

theorem images_displaced (hI : ImagesOk A L) : ImagesOk (displaced A u τ) L := ⟨hI.tag, hI.orig, hI.self⟩

/-- Small displacements do not change the neighbours. -/
theorem nbrs_displaced (hA : AtomsOk A mt nT) {ns : List ℕ} (hns : ∀ i ∈ ns, EntryOk A L i)
    (hoff : ∀ i ∈ ns, ∀ j ∈ listed L i, ∑ c ∈ Finset.range 3, disp A i j c ^ 2 ≠ rc ^ 2) (u : ℕ → ℕ → ℝ) :
    ∀ᶠ τ in nhds (0 : ℝ), ∀ i ∈ ns, nbrs (displaced A u τ) L rc i = nbrs A L rc i := by
  classical
  have hpair : ∀ i ∈ ns, ∀ j ∈ listed L i, ∀ᶠ τ in nhds (0 : ℝ),
      (∑ c ∈ Finset.range 3, disp (displaced A u τ) i j c ^ 2 < rc ^ 2 ↔ ∑ c ∈ Finset.range 3, disp A i j c ^ 2 < rc ^ 2) := by
    intro i hi j hj
    have heq : ∀ τ, ∑ c ∈ Finset.range 3, disp (displaced A u τ) i j c ^ 2
        = ∑ c ∈ Finset.range 3, (disp A i j c + τ * (u j c - u i c)) ^ 2 := by
      intro τ
      refine Finset.sum_congr rfl (fun c hc => ?_)
      rw [disp_displaced hA (hns i hi).lt ((hns i hi).nb j hj) (Finset.mem_range.mp hc)]
    have hc : Continuous (fun τ : ℝ => ∑ c ∈ Finset.range 3, (disp A i j c + τ * (u j c - u i c)) ^ 2) := by fun_prop
    have h0 : ∑ c ∈ Finset.range 3, (disp A i j c + 0 * (u j c - u i c)) ^ 2 = ∑ c ∈ Finset.range 3, disp A i j c ^ 2 := by
      simp
    rcases lt_or_gt_of_ne (hoff i hi j hj) with hlt | hgt
    · have := (hc.continuousAt (x := 0)).eventually (p := fun y => y < rc ^ 2) (by dsimp only; rw [h0]; exact gt_mem_nhds hlt)
      filter_upwards [this] with τ h
      rw [heq]
      exact ⟨fun _ => hlt, fun _ => h⟩
    · have := (hc.continuousAt (x := 0)).eventually (p := fun y => rc ^ 2 < y) (by dsimp only; rw [h0]; exact lt_mem_nhds hgt)
      filter_upwards [this] with τ h
      rw [heq]
      exact ⟨fun h' => absurd h' (not_lt.mpr h.le), fun h' => absurd h' (not_lt.mpr (le_of_lt hgt))⟩
  have hall : ∀ i ∈ ns, ∀ᶠ τ in nhds (0 : ℝ), ∀ j ∈ (listed L i).toFinset,
      (∑ c ∈ Finset.range 3, disp (displaced A u τ) i j c ^ 2 < rc ^ 2 ↔ ∑ c ∈ Finset.range 3, disp A i j c ^ 2 < rc ^ 2) :=
    fun i hi => (Filter.eventually_all_finset _).mpr (fun j hj => hpair i hi j (List.mem_toFinset.mp hj))
  have := (Filter.eventually_all_finset ns.toFinset).mpr (fun i hi => hall i (List.mem_toFinset.mp hi))
  filter_upwards [this] with τ h i hi
  unfold nbrs
  apply List.filter_congr
  intro j hj
  rw [decide_eq_decide]
  exact h i (List.mem_toFinset.mpr hi) j (List.mem_toFinset.mpr hj)

theorem bonds_congr {A A' : Atoms} {ns : List ℕ} (h : ∀ i ∈ ns, nbrs A' L rc i = nbrs A L rc i) : bonds A' L rc ns = bonds A L rc ns := by
  unfold bonds
  rw [List.flatMap_def, List.flatMap_def]
  congr 1
  apply List.map_congr_left
  intro i hi
  rw [h i hi]

theorem sysOf_congr {A A' : Atoms} {ns : List ℕ} {ix : ℕ → ℕ} (h : ∀ i ∈ ns, nbrs A' L rc i = nbrs A L rc i)
    (ht : A'.type = A.type) : sysOf A' L rc mt ns ix = sysOf A L rc mt ns ix := by
  have hs : species mt A' = species mt A := by funext i; unfold species; rw [ht]
  unfold sysOf
  rw [bonds_congr h, hs]
  congr 1
  apply List.map_congr_left
  intro i hi
  rw [h i hi]

theorem bondVecs_displaced (hA : AtomsOk A mt nT) (hL : ListOk A L)
    (h : ∀ i ∈ centres L, nbrs (displaced A u τ) L rc i = nbrs A L rc i) {e c : ℕ} (he : e < (bonds A L rc (centres L)).length)
    (hc : c < 3) : bondVecs (displaced A u τ) L rc e c = bondVecs A L rc e c
      + τ * (u (endB A L rc (centres L) e) c - u (endA A L rc (centres L) e) c) := by
  have h1 := ends_mem he
  unfold bondVecs
  rw [bonds_congr h, vecs_ends]
  change disp (displaced A u τ) (endA A L rc (centres L) e) (endB A L rc (centres L) e) c = _
  exact disp_displaced hA (hL.entry _ h1.1).lt (nbrs_lt (hL.entry _ h1.1) h1.2) hc

/-- Edge displacements of atom displacements. -/
noncomputable def edgeDir (A : Atoms) (L : NList) (rc : ℝ) (ns : List ℕ) (u : ℕ → ℕ → ℝ) (e c : ℕ) : ℝ :=
  u (endB A L rc ns e) c - u (endA A L rc ns e) c

/-- The features only depend on the bond vectors of the edges. -/
theorem energy_vec_congr {T : Sys} {X X' : ℕ → ℕ → ℝ} (hT : SysOk f T) (h : ∀ e < T.E, ∀ a < 3, X' e a = X e a) {i : ℕ} (hi : i < T.N) :
    energy (netOf f) (confOf f sph T X') i = energy (netOf f) (confOf f sph T X) i := by
  have hs : ∀ i < T.N, SameEnv T X T X' i i id := fun i hi =>
    ⟨rfl, Set.bijOn_id _, fun e he a ha => by exact h e (edg_lt hi he) a ha, fun e he => rfl⟩
  refine (hs i hi).energy hi hi (fun e he LM k => ?_)
  have hn := hT.nbr e (edg_lt hi he)
  exact (hs _ hn).h1 hn hn k LM

theorem periodic_displaced (h : ∀ i ∈ centres L, nbrs (displaced A u τ) L rc i = nbrs A L rc i) :
    periodic (displaced A u τ) L rc mt = periodic A L rc mt := by
  unfold periodic
  exact sysOf_congr h rfl

/-- Derivative of the total energy along any displacement of the atoms. -/
theorem Etot_hasDerivAt (hf : FileOk f) (hA : AtomsOk A mt f.nT) (hL : ListOk A L) (hI : ImagesOk A L) (hO : OffCutoff A L rc)
    (hX : Inside f (periodic A L rc mt) (bondVecs A L rc)) (hsph : IsSphGrad sph dsph ((f.lmax + 1) * (f.lmax + 1))) {s : State ℝ}
    (hs : StOk f s) (hsc : Props.ScalesNonzero f sph (periodic A L rc mt) (bondVecs A L rc)) (u : ℕ → ℕ → ℝ) :
    HasDerivAt (fun τ => Etot f sph L rc mt (displaced A u τ))
      (- ∑ e ∈ Finset.range (bonds A L rc (centres L)).length, ∑ c ∈ Finset.range 3,
        forceOf f sph dsph (periodic A L rc mt) (bondVecs A L rc) e c * edgeDir A L rc (centres L) u e c) 0 ∧
    ∀ᶠ τ in nhds (0 : ℝ), Inside f (periodic (displaced A u τ) L rc mt) (bondVecs (displaced A u τ) L rc) ∧
      ∀ i ∈ centres L, nbrs (displaced A u τ) L rc i = nbrs A L rc i := by
  have hT := periodic_ok (rc := rc) hA hL hI
  have hN : (periodic A L rc mt).N = L.inum := centres_length hL
  have hE : (periodic A L rc mt).E = (bonds A L rc (centres L)).length := sysOf_E _ _
  have hnb := nbrs_displaced hA hL.entry hO u
  have hd := total_hasDerivAt hf hT hX hsph hs (fun i hi => (hsc i hi).1) (fun i hi => (hsc i hi).2)
    (edgeDir A L rc (centres L) u)
  rw [hE, hN] at hd
  refine ⟨hd.congr_of_eventuallyEq ?_, ?_⟩
  · filter_upwards [hnb] with τ h
    unfold Etot
    rw [periodic_displaced h]
    refine Finset.sum_congr rfl (fun i hi => ?_)
    exact energy_vec_congr hT (fun e he a ha => bondVecs_displaced hA hL h (by rwa [hE] at he) ha)
      (by rw [hN]; exact Finset.mem_range.mp hi)
  · filter_upwards [hnb, Props.inside_open hX (edgeDir A L rc (centres L) u)] with τ h hin
    refine ⟨?_, h⟩
    rw [periodic_displaced h]
    intro e he
    rw [len_congr (fun a ha => bondVecs_displaced hA hL h (by rwa [hE] at he) ha)]
    exact hin e he

end Verif.Lammps
