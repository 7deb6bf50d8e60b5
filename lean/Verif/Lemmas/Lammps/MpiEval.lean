import Verif.Lemmas.Lammps.NoMpiEval
import Verif.Lemmas.Lammps.Decomp
import Verif.Lemmas.Lammps.CommAll

/-! # The phases of `compute_mpi_message_passing` -/

namespace Verif.Lammps
open Verif.MACE Verif.Spec

theorem T3_tab2 (n1 n2 n3 : ℕ) (f : ℕ → ℕ → ℕ → ℝ) : T3 n1 n2 n3 f = tab2 n1 (n2 * n3) (fun i q => f i (q / n3) (q % n3)) := by
  rw [eq_tab2_iff]
  refine ⟨by rw [length_T3, mul_assoc], fun i hi q hq => ?_⟩
  obtain ⟨j, k, hj, hk, rfl⟩ := flat_decomp hq
  have := T3_get f hi hj hk
  rw [flat_div hk, flat_mod hk, ← this]
  congr 1
  ring

theorem tab2_T3 (n1 n2 n3 : ℕ) (g : ℕ → ℕ → ℝ) : tab2 n1 (n2 * n3) g = T3 n1 n2 n3 (fun i j k => g i (j * n3 + k)) := by
  rw [T3_tab2]
  refine tab2_congr (fun i _ q hq => ?_)
  obtain ⟨j, k, hj, hk, rfl⟩ := flat_decomp hq
  rw [flat_div hk, flat_mod hk]

/-- `eachProc` succeeds if the phase does on every process. -/
theorem eachProc_eq {σ : Type} {np : ℕ} {f : ℕ → σ → Option σ} {st : ℕ → σ} {st' : ℕ → σ}
    (h : ∀ p < np, f p (st p) = some (st' p)) : eachProc np f st = some (fun p => if p < np then st' p else st p) := by
  unfold eachProc
  have := loop_eq (n := np) (fun m => fun p => if p < m then st' p else st p)
    (body := fun p st => do
      let q ← f p (st p)
      pure (Function.update st p q)) (fun p hp => by
      simp only [lt_irrefl, if_false, h p hp, Option.bind_eq_bind, Option.bind_some, Option.pure_def]
      congr 1
      funext q
      by_cases hq : q = p
      · subst hq; simp
      · rw [Function.update_of_ne hq]
        by_cases h1 : q < p
        · rw [if_pos h1, if_pos (by omega)]
        · rw [if_neg h1, if_neg (by omega)])
  simpa using this

variable {rc : ℝ} {mt : List ℕ} {A : Atoms} {L : NList} {f : File} {sph : ℝ → ℝ → ℝ → ℕ → ℝ} {dsph : ℝ → ℝ → ℝ → ℕ → ℕ → ℝ}
  {P : Params ℝ}

theorem sortH1_eq (hL : ListOk A L) {C : ℕ} {h g : ℕ → ℕ → ℝ} :
    sortH1 C L.inum L.ilist (tab2 L.inum C h) (tab2 (natoms A) C g)
      = some (tab2 (natoms A) C (fun a k => if a ∈ centres L then h (rank (centres L) a) k else g a k)) := by
  have hlen := centres_length hL
  unfold sortH1
  have hget : ∀ ii (hii : ii < L.inum), L.ilist[ii]? = some ((centres L)[ii]'(by omega)) := by
    intro ii hii
    have h2 := hL.inum
    rw [List.getElem?_eq_getElem (by omega)]
    simp [centres]
  have key := loop_eq (n := L.inum) (fun m => tab2 (natoms A) C (fun a k =>
      if a ∈ centres L ∧ rank (centres L) a < m then h (rank (centres L) a) k else g a k))
    (body := fun ii H1 => do
      let i ← L.ilist[ii]?
      loop C (fun k H1 => do
        let v ← (tab2 L.inum C h)[ii * C + k]?
        wr H1 (i * C + k) v) H1) (fun ii hii => by
      have hi := hget ii hii
      set i := (centres L)[ii]'(by omega) with hidef
      have hmem : i ∈ centres L := List.getElem_mem _
      have hrank : rank (centres L) i = ii := rank_get hL.nodup _
      have hlt : i < natoms A := Nat.lt_add_right _ (hL.loc i hmem)
      have huniq : ∀ a ∈ centres L, rank (centres L) a = ii → a = i := by
        intro a ha hr
        have := get_rank ha
        rw [← this]
        congr 1
      rw [hi]
      simp only [Option.bind_eq_bind, Option.bind_some]
      have hin := loop_eq (n := C) (fun k' => tab2 (natoms A) C (fun a k =>
          if (a ∈ centres L ∧ rank (centres L) a < ii) ∨ (a = i ∧ k < k') then h (rank (centres L) a) k else g a k))
        (body := fun k H1 => ((tab2 L.inum C h)[ii * C + k]?).bind (fun v => wr H1 (i * C + k) v)) (fun k hk => by
          rw [getElem?_tab2 hii hk, Option.bind_some, wr_tab2 _ hlt hk]
          congr 1
          refine tab2_congr (fun a _ q _ => ?_)
          unfold upd2
          by_cases h1 : a = i ∧ q = k
          · rw [if_pos h1, if_pos (Or.inr ⟨h1.1, by omega⟩), h1.1, hrank, h1.2]
          · rw [if_neg h1]
            refine if_congr ?_ rfl rfl
            constructor
            · rintro (h2 | ⟨h2, h3⟩)
              · exact Or.inl h2
              · exact Or.inr ⟨h2, by omega⟩
            · rintro (h2 | ⟨h2, h3⟩)
              · exact Or.inl h2
              · refine Or.inr ⟨h2, ?_⟩
                have : q ≠ k := fun h4 => h1 ⟨h2, h4⟩
                omega)
      refine Eq.trans ?_ (hin.trans ?_)
      · congr 1
        refine tab2_congr (fun a _ q _ => if_congr ?_ rfl rfl)
        simp
      · congr 1
        refine tab2_congr (fun a _ q hq => if_congr ?_ rfl rfl)
        constructor
        · rintro (⟨h1, h2⟩ | ⟨h1, h2⟩)
          · exact ⟨h1, by omega⟩
          · rw [h1]; exact ⟨hmem, by rw [hrank]; omega⟩
        · rintro ⟨h1, h2⟩
          by_cases h3 : rank (centres L) a = ii
          · exact Or.inr ⟨huniq a h1 h3, hq⟩
          · exact Or.inl ⟨h1, by omega⟩)
  refine Eq.trans ?_ (key.trans ?_)
  · congr 1
    refine tab2_congr (fun a _ q _ => ?_)
    rw [if_neg (by omega)]
  · congr 1
    refine tab2_congr (fun a _ q _ => if_congr ?_ rfl rfl)
    constructor
    · exact fun h => h.1
    · exact fun h => ⟨h, by rw [← hlen]; exact rank_lt h⟩

/-- Graph and bond vectors of a process in this mode. -/
noncomputable abbrev locSys (A : Atoms) (L : NList) (rc : ℝ) (mt : List ℕ) : Sys := sysOf A L rc mt (centres L) (fun j => j)

noncomputable abbrev locVecs (A : Atoms) (L : NList) (rc : ℝ) : ℕ → ℕ → ℝ := vecs A (bonds A L rc (centres L))

theorem loc_in (hA : AtomsOk A mt f.nT) (hL : ListOk A L) : SysIn f (locSys A L rc mt) (natoms A) :=
  sysOf_in hA hL.entry (fun i hi j hj => nbrs_lt (hL.entry i hi) hj)

/-- The state after the first phase. -/
structure Ph1 (f : File) (sph : ℝ → ℝ → ℝ → ℕ → ℝ) (dsph : ℝ → ℝ → ℝ → ℕ → ℕ → ℝ) (rc : ℝ) (mt : List ℕ) (A : Atoms) (L : NList)
    (q q' : Proc) : Prop where
  t : q'.t = q.t
  nodeI : q'.w.nodeI = centres L
  neighJ : q'.w.neighJ = (bonds A L rc (centres L)).map (fun p => p.2)
  graph : { q'.w.graph L.inum with idx := q'.w.neighJ } = (locSys A L rc mt).graph (locVecs A L rc)
  out : Seg1Out (netOf f) ((locSys A L rc mt).graph (locVecs A L rc)) f.nT (confOf f sph (locSys A L rc mt) (locVecs A L rc))
    (dconfOf f dsph (locSys A L rc mt) (locVecs A L rc)) { q.s with
      nodeEnergies := tab L.inum (confOf f sph (locSys A L rc mt) (locVecs A L rc)).pairE
      nodeForces := tab2 (locSys A L rc mt).E 3 (zblForce f (locSys A L rc mt) (locVecs A L rc)) } q'.s
  H1 : ∃ g : ℕ → ℕ → ℝ, q'.H1 = tab2 (natoms A) ((netOf f).LM * (netOf f).C) (fun a k => if a ∈ centres L then
    h1 (netOf f) (confOf f sph (locSys A L rc mt) (locVecs A L rc)) (rank (centres L) a) (k / (netOf f).C) (k % (netOf f).C) else g a k)

theorem mpi1_spec (hf : FileOk f) (hP : Loaded f sph dsph P) (hA : AtomsOk A mt f.nT) (hL : ListOk A L)
    (hX : Inside f (locSys A L rc mt) (locVecs A L rc)) {q : Proc} (hs : StOk f q.s) :
    ∃ q', mpi1 f.zbl P rc mt A L q = some q' ∧ Ph1 f sph dsph rc mt A L q q' := by
  obtain ⟨w', b1, b2, b3, b4⟩ := buildMpi_spec (rc := rc) hA hL q.w
  have hT := loc_in (rc := rc) hA hL
  have hN : (locSys A L rc mt).N = L.inum := centres_length hL
  have hg : GOk ((locSys A L rc mt).graph (locVecs A L rc)) f.nT (natoms A) (confOf f sph (locSys A L rc mt) (locVecs A L rc))
      (nthN (locSys A L rc mt).nn) (dconfOf f dsph (locSys A L rc mt) (locVecs A L rc)).X
      (dconfOf f dsph (locSys A L rc mt) (locVecs A L rc)).R := graph_ok hT le_rfl
  have hfe : FeatOk P (netOf f) ((locSys A L rc mt).graph (locVecs A L rc)) f.phil.length
      (confOf f sph (locSys A L rc mt) (locVecs A L rc)) (dconfOf f dsph (locSys A L rc mt) (locVecs A L rc)) := feat_ok hf hT hP hX
  have e0 := startMace_spec (X := locVecs A L rc) (sph := sph) hf hT hP (nl := (locSys A L rc mt).N) le_rfl q.s
  have hz : tab2 (locSys A L rc mt).E 3 (fun e a => if e < off (locSys A L rc mt).nn (locSys A L rc mt).N then
      zblForce f (locSys A L rc mt) (locVecs A L rc) e a else 0) = tab2 (locSys A L rc mt).E 3 (zblForce f (locSys A L rc mt) (locVecs A L rc)) :=
    tab2_congr (fun e he a _ => if_pos he)
  rw [hz, hN] at e0
  obtain ⟨s1, e1, o1⟩ := seg1_spec (s := { q.s with
      nodeEnergies := tab L.inum (confOf f sph (locSys A L rc mt) (locVecs A L rc)).pairE
      nodeForces := tab2 (locSys A L rc mt).E 3 (zblForce f (locSys A L rc mt) (locVecs A L rc)) }) hP.wok hg hfe hs.P0
  have hC : P.LM * P.C = (netOf f).LM * (netOf f).C := by
    unfold Params.LM Net.LM
    rw [hP.wok.Lmax, hP.wok.C]
  have hr : resize q.H1 ((A.nlocal + A.nghost) * (P.LM * P.C)) = tab2 (natoms A) ((netOf f).LM * (netOf f).C)
      (fun a k => nth (resize q.H1 ((A.nlocal + A.nghost) * (P.LM * P.C))) (a * ((netOf f).LM * (netOf f).C) + k)) := by
    rw [eq_tab2_iff]
    refine ⟨by rw [length_resize, hC], fun a ha k hk => get_nth ?_⟩
    rw [length_resize, hC]
    exact flat_lt ha hk
  have hH : s1.H1 = tab2 L.inum ((netOf f).LM * (netOf f).C) (fun i q => h1 (netOf f) (confOf f sph (locSys A L rc mt) (locVecs A L rc))
      i (q / (netOf f).C) (q % (netOf f).C)) := by
    rw [o1.H1, T3_tab2]
    change tab2 (locSys A L rc mt).N _ _ = _
    rw [hN]
  have hst : startMace f.zbl P (w'.graph L.inum) q.s = startMace f.zbl P { (locSys A L rc mt).graph (locVecs A L rc) with N := L.inum } q.s := by
    rw [← b4]; rfl
  have hse : ∀ s, seg1 P (w'.graph L.inum) s = seg1 P ((locSys A L rc mt).graph (locVecs A L rc)) s := by
    intro s; rw [← b4]; rfl
  have hso := sortH1_eq hL (C := (netOf f).LM * (netOf f).C) (h := fun i q => h1 (netOf f) (confOf f sph (locSys A L rc mt) (locVecs A L rc))
      i (q / (netOf f).C) (q % (netOf f).C)) (g := fun a k => nth (resize q.H1 ((A.nlocal + A.nghost) * (P.LM * P.C)))
        (a * ((netOf f).LM * (netOf f).C) + k))
  rw [← hH, ← hr] at hso
  obtain ⟨R, hR⟩ : ∃ R : List ℝ, R = tab2 (natoms A) ((netOf f).LM * (netOf f).C) (fun a k => if a ∈ centres L then
      h1 (netOf f) (confOf f sph (locSys A L rc mt) (locVecs A L rc)) (rank (centres L) a) (k / (netOf f).C) (k % (netOf f).C)
      else nth (resize q.H1 ((A.nlocal + A.nghost) * (P.LM * P.C))) (a * ((netOf f).LM * (netOf f).C) + k)) := ⟨_, rfl⟩
  rw [← hR] at hso
  refine ⟨{ q with w := w', s := s1, H1 := R }, ?_, ⟨rfl, b2, b3, b4, o1, _, hR⟩⟩
  have hm : mpi1 f.zbl P rc mt A L q = (buildMpi rc mt A L q.w).bind (fun w => (startMace f.zbl P (w.graph L.inum) q.s).bind (fun s =>
      (seg1 P (w.graph L.inum) s).bind (fun s => (sortH1 (P.LM * P.C) L.inum L.ilist s.H1
        (resize q.H1 ((A.nlocal + A.nghost) * (P.LM * P.C)))).bind (fun H1 => some { q with w := w, s := s, H1 := H1 })))) := by
    unfold mpi1 seg1
    simp only [Option.bind_eq_bind, Option.bind_assoc, Option.pure_def]
  rw [hm, b1, Option.bind_some, hst, e0, Option.bind_some, hse, e1, Option.bind_some, hC, ← hC, hC]
  rw [← hC] at hso ⊢
  rw [hso, Option.bind_some]

/-- The state after the second phase, with rows `H` of first-layer features. -/
structure Ph2 (f : File) (sph : ℝ → ℝ → ℝ → ℕ → ℝ) (dsph : ℝ → ℝ → ℝ → ℕ → ℕ → ℝ) (rc : ℝ) (mt : List ℕ) (A : Atoms) (L : NList)
    (H : ℕ → ℕ → ℕ → ℝ) (q q' : Proc) : Prop where
  t : q'.t = q.t
  w : q'.w = q.w
  out : Seg2Out (netOf f) ((locSys A L rc mt).graph (locVecs A L rc)) f.nT (natoms A)
    (confOf f sph (locSys A L rc mt) (locVecs A L rc)) (dconfOf f dsph (locSys A L rc mt) (locVecs A L rc)) (roGrad f) (RoIs f) H
    (confOf f sph (locSys A L rc mt) (locVecs A L rc)).pairE (zblForce f (locSys A L rc mt) (locVecs A L rc))
    { q.s with H1 := T3 (natoms A) (netOf f).LM (netOf f).C H } q'.s

theorem mpi2_spec (hf : FileOk f) (hP : Loaded f sph dsph P) (hA : AtomsOk A mt f.nT) (hL : ListOk A L)
    (hX : Inside f (locSys A L rc mt) (locVecs A L rc)) {q0 q : Proc} (hs : StOk f q0.s) (h1 : Ph1 f sph dsph rc mt A L q0 q)
    (hi : L.inum ≤ natoms A) {H1 : List ℝ} {H : ℕ → ℕ → ℕ → ℝ} (hH : H1 = T3 (natoms A) (netOf f).LM (netOf f).C H) :
    ∃ q', mpi2 P L H1 q = some q' ∧ Ph2 f sph dsph rc mt A L H q q' := by
  have hT := loc_in (rc := rc) hA hL
  have hN : (locSys A L rc mt).N = L.inum := centres_length hL
  have hg : GOk ((locSys A L rc mt).graph (locVecs A L rc)) f.nT (natoms A) (confOf f sph (locSys A L rc mt) (locVecs A L rc))
      (nthN (locSys A L rc mt).nn) (dconfOf f dsph (locSys A L rc mt) (locVecs A L rc)).X
      (dconfOf f dsph (locSys A L rc mt) (locVecs A L rc)).R := graph_ok hT le_rfl
  have hfe : FeatOk P (netOf f) ((locSys A L rc mt).graph (locVecs A L rc)) f.phil.length
      (confOf f sph (locSys A L rc mt) (locVecs A L rc)) (dconfOf f dsph (locSys A L rc mt) (locVecs A L rc)) := feat_ok hf hT hP hX
  have hEx : ((locSys A L rc mt).graph (locVecs A L rc)).Ex = (locSys A L rc mt).E := by rw [graph_gx]; exact gx_Ex
  have o1 := h1.out
  obtain ⟨s2, e2, o2⟩ := seg2_spec (s := { q.s with H1 := T3 (natoms A) (netOf f).LM (netOf f).C H }) (NH := natoms A)
    (E := (confOf f sph (locSys A L rc mt) (locVecs A L rc)).pairE) (F := zblForce f (locSys A L rc mt) (locVecs A L rc))
    hP.wok hg (by change (locSys A L rc mt).N ≤ _; omega) hfe
    (by rw [hP.ex]; exact ro_ok f) (by change P1Ok _ _ q.s.P1; rw [o1.P1]; exact hs.P1) (by change RoIs f q.s.ro2; rw [o1.ro2]; exact hs.ro2) rfl
    (by change q.s.nodeEnergies = tab (locSys A L rc mt).N _; rw [o1.nodeEnergies, hN])
    (by change q.s.nodeForces = _; rw [o1.nodeForces, hEx]) o1.Y o1.Yg
  refine ⟨{ q with s := s2, H1 := H1 }, ?_, ⟨rfl, rfl, o2⟩⟩
  have hm : mpi2 P L H1 q = (seg2 P { q.w.graph L.inum with idx := q.w.neighJ } { q.s with H1 := H1 }).bind (fun s =>
      some { q with s := s, H1 := H1 }) := by
    unfold mpi2 seg2
    simp only [Option.bind_eq_bind, Option.bind_assoc, Option.pure_def]
  rw [hm, h1.graph, hH, e2, Option.bind_some, ← hH]

/-- The result of the third phase, with rows `Ha` of adjoints. -/
theorem mpi3_spec (hf : FileOk f) (hP : Loaded f sph dsph P) (hA : AtomsOk A mt f.nT) (hL : ListOk A L)
    (hX : Inside f (locSys A L rc mt) (locVecs A L rc)) {q0 q1 q : Proc} (hs : StOk f q0.s) {H Ha : ℕ → ℕ → ℕ → ℝ}
    (h1 : Ph1 f sph dsph rc mt A L q0 q1) (h2 : Ph2 f sph dsph rc mt A L H q1 q) (hi : L.inum ≤ natoms A)
    {H1a : List ℝ} (hHa : H1a = T3 (natoms A) (netOf f).LM (netOf f).C Ha)
    {fl : Flags} (hv : fl.vAtom = false) {M m : ℕ} {f0 : ℕ → ℕ → ℝ} {v0 : ℕ → ℝ} (hf0 : q0.t.f = tab2 M 3 f0)
    (hv0 : q0.t.virial = tab m v0) (hM : natoms A ≤ M) (hm : 6 ≤ m) (hea : L.inum ≤ q0.t.eatom.length) :
    ∃ q', mpi3 P fl L H1a q = some q' ∧ StOk f q'.s ∧ q'.t =
      { eng := if fl.eGlobal then q0.t.eng + ∑ i ∈ Finset.range L.inum,
          nodeE (netOf f) (confOf f sph (locSys A L rc mt) (locVecs A L rc)) H i else q0.t.eng
        eatom := if fl.eAtom then tab q0.t.eatom.length (fun i => if i < L.inum then
          nodeE (netOf f) (confOf f sph (locSys A L rc mt) (locVecs A L rc)) H i else nth q0.t.eatom i) else q0.t.eatom
        f := tab2 M 3 (fun a c => f0 a c + ∑ e ∈ Finset.range (bonds A L rc (centres L)).length,
          forcePart f sph dsph (locSys A L rc mt) (locVecs A L rc) L.inum H Ha e c
            * ((if a = endB A L rc (centres L) e then 1 else 0) - if a = endA A L rc (centres L) e then 1 else 0))
        virial := if fl.vGlobal then tab m (fun k => v0 k + if k < 6 then
          ∑ e ∈ Finset.range (bonds A L rc (centres L)).length,
            1 / 2 * (locVecs A L rc e (voigt k).1 * forcePart f sph dsph (locSys A L rc mt) (locVecs A L rc) L.inum H Ha e (voigt k).2
              + locVecs A L rc e (voigt k).2 * forcePart f sph dsph (locSys A L rc mt) (locVecs A L rc) L.inum H Ha e (voigt k).1)
            else 0) else tab m v0 } := by
  have hT := loc_in (rc := rc) hA hL
  have hN : (locSys A L rc mt).N = L.inum := centres_length hL
  have hE : (locSys A L rc mt).E = (bonds A L rc (centres L)).length := sysOf_E _ _
  have hg : GOk ((locSys A L rc mt).graph (locVecs A L rc)) f.nT (natoms A) (confOf f sph (locSys A L rc mt) (locVecs A L rc))
      (nthN (locSys A L rc mt).nn) (dconfOf f dsph (locSys A L rc mt) (locVecs A L rc)).X
      (dconfOf f dsph (locSys A L rc mt) (locVecs A L rc)).R := graph_ok hT le_rfl
  have hfe : FeatOk P (netOf f) ((locSys A L rc mt).graph (locVecs A L rc)) f.phil.length
      (confOf f sph (locSys A L rc mt) (locVecs A L rc)) (dconfOf f dsph (locSys A L rc mt) (locVecs A L rc)) := feat_ok hf hT hP hX
  have hEx : ((locSys A L rc mt).graph (locVecs A L rc)).Ex = (locSys A L rc mt).E := by rw [graph_gx]; exact gx_Ex
  have o1 := h1.out
  have o2 := h2.out
  have b4 := h1.graph
  obtain ⟨s3, e3, f1, f2, f3, f4, f5⟩ := seg3_spec (s := { q.s with H1a := H1a }) (NH := natoms A) hP.wok hg
    (by change (locSys A L rc mt).N ≤ _; omega) hfe
    (by change q.s.A0 = _; rw [o2.A0, ← o1.A0]) (by change q.s.M0 = _; rw [o2.M0, ← o1.M0])
    (by change ∀ i < _, ∀ LM < _, ∀ lm < _, ∀ k < _, q.s.M0g[_]? = _; rw [o2.M0g]; exact o1.M0g) hHa
    (by change Rows _ _ _ q.s.R0 _; rw [o2.R0]; exact o1.R0) (by change Rows _ _ _ q.s.R0d _; rw [o2.R0d]; exact o1.R0d) o2.nodeForces
    (by change _ → q.s.Y = _; rw [o2.Y]; exact o1.Y) (by change _ → q.s.Yg = _; rw [o2.Yg]; exact o1.Yg)
  have e4 : s3.nodeEnergies = tab L.inum (nodeE (netOf f) (confOf f sph (locSys A L rc mt) (locVecs A L rc)) H) := by
    rw [f2, ← hN]; exact o2.nodeEnergies
  have e5 : s3.nodeForces = tab2 (locSys A L rc mt).E 3 (forcePart f sph dsph (locSys A L rc mt) (locVecs A L rc) L.inum H Ha) := by
    rw [f1, hEx, ← hN, ← part_forces le_rfl]
    refine tab2_congr (fun e he a _ => ?_)
    rw [if_pos (show e < off (locSys A L rc mt).nn (locSys A L rc mt).N from he)]
    rfl
  have hse : ∀ s, seg3 P (q.w.graph L.inum) s = seg3 P ((locSys A L rc mt).graph (locVecs A L rc)) s := by
    intro s; rw [← b4, h2.w]; rfl
  have hm' : mpi3 P fl L H1a q = (seg3 P (q.w.graph L.inum) { q.s with H1a := H1a }).bind (fun s =>
      (finish fl L.inum L.inum q.w s.nodeEnergies s.nodeForces q.t).bind (fun t => some { q with s := s, t := t })) := by
    unfold mpi3 seg3
    simp only [Option.bind_eq_bind, Option.bind_assoc, Option.pure_def]
  rw [hm', hse, e3, Option.bind_some]
  have hxyz : q.w.xyz = tab2 (bonds A L rc (centres L)).length 3 (vecs A (bonds A L rc (centres L))) := by
    have := congrArg Graph.xyz b4
    change q1.w.xyz = tab2 _ 3 _ at this
    rw [h2.w, this]
    congr 1
  have hnn : q.w.nn = (centres L).map (fun i => (nbrs A L rc i).length) := by rw [h2.w]; exact congrArg Graph.nn b4
  have hfin := finish_eq (A := A) (L := L) (rc := rc) (ns := centres L) (jOf := fun j => j) (nE := L.inum) (m := m) (M := M)
    (En := s3.nodeEnergies) (F := forcePart f sph dsph (locSys A L rc mt) (locVecs A L rc) L.inum H Ha) (f0 := f0) (v0 := v0)
    (eng := q0.t.eng) (ea := q0.t.eatom) (by rw [h2.w]; exact h1.nodeI) hnn (by rw [h2.w]; exact h1.neighJ) hxyz
    (fun i hi => by have := (hL.entry i hi).lt; unfold natoms at hM; omega)
    (fun i hi j hj => by have := nbrs_lt (hL.entry i hi) hj; unfold natoms at hM; omega) (by rw [e4]; simp) hea hm hv
  rw [← hE, ← e5, ← hf0, ← hv0, hE, centres_length hL] at hfin
  have ht : (⟨q0.t.eng, q0.t.eatom, q0.t.f, q0.t.virial⟩ : Tally) = q.t := by rw [h2.t, h1.t]
  rw [ht] at hfin
  rw [hfin, Option.bind_some]
  refine ⟨_, rfl, ⟨?_, ?_, ?_⟩, ?_⟩
  · change P0Ok _ _ s3.P0; rw [f3]; change P0Ok _ _ q.s.P0; rw [o2.P0]; exact o1.P0
  · change P1Ok _ _ s3.P1; rw [f4]; exact o2.P1
  · change RoIs f s3.ro2; rw [f5]; exact o2.ro2
  have hsum : ∑ i ∈ Finset.range L.inum, nth s3.nodeEnergies i
      = ∑ i ∈ Finset.range L.inum, nodeE (netOf f) (confOf f sph (locSys A L rc mt) (locVecs A L rc)) H i :=
    Finset.sum_congr rfl (fun i hi => by rw [e4, nth_tab (Finset.mem_range.mp hi)])
  have hea2 : tab q0.t.eatom.length (fun i => if i < L.inum then nth s3.nodeEnergies i else nth q0.t.eatom i)
      = tab q0.t.eatom.length (fun i => if i < L.inum then
          nodeE (netOf f) (confOf f sph (locSys A L rc mt) (locVecs A L rc)) H i else nth q0.t.eatom i) := by
    apply tab_congr
    intro i _
    by_cases h : i < L.inum
    · rw [if_pos h, if_pos h, e4, nth_tab h]
    · rw [if_neg h, if_neg h]
  dsimp only
  rw [hsum, hea2, hv0]

end Verif.Lammps
