import Verif.Props.Motion
import Verif.Props.Torque
import Verif.Props.KokkosPairMpi
import Mathlib.Analysis.SpecialFunctions.Trigonometric.Deriv

/-! # Property theorems: conservation laws for both pair styles in all modes (C113) -/

namespace Verif.Props
open Verif.Lammps Verif.MACE Verif.Spec Filter

/-- The energy `U` and forces `F` added by one call, for the atoms `A0` with list `L0`: of the CPU style or the Kokkos style, each in
single-process mode or divided among processes in one of the two parallel modes.  Energies and forces of all processes are summed, forces
over all images. -/
inductive Computes (f : File) (P : Params ℝ) (s0 : State ℝ) (Q : Kokkos.Params ℝ) (rc : ℝ) (mt : List ℕ) (fl : Flags) (A0 : Atoms) (L0 : NList) :
    ℝ → (ℕ → ℕ → ℝ) → Prop
  | single {s : State ℝ} {w : Work} {y : Tally} {r : Work × State ℝ × Tally} : Hist f P s0 s → TallyOk A0 L0 y →
      computeSingle f.zbl P rc mt fl A0 L0 w s y = some r →
      Computes f P s0 Q rc mt fl A0 L0 (r.2.2.eng - y.eng) (fun b c => nth r.2.2.f (3 * b + c) - nth y.f (3 * b + c))
  | noMpi {np : ℕ} {A : ℕ → Atoms} {L : ℕ → NList} {κ : ℕ → ℕ → ℕ} {sp : ℕ → State ℝ} {wp : ℕ → Work} {tp : ℕ → Tally} {old : ℕ → List ℕ}
      {rp : ℕ → Work × State ℝ × Tally} : GhostParts f rc mt np A L κ A0 L0 →
      (∀ p < np, Hist f P s0 (sp p) ∧ GhostTallyOk (A p) (L p) (tp p)) →
      (∀ p < np, computeNoMpi f.zbl P rc mt fl (A p) (L p) (old p) (wp p) (sp p) (tp p) = some (rp p)) →
      Computes f P s0 Q rc mt fl A0 L0 (∑ p ∈ Finset.range np, ((rp p).2.2.eng - (tp p).eng)) (forceSum np A κ tp (fun p => (rp p).2.2))
  | mpi {np : ℕ} {A : ℕ → Atoms} {L : ℕ → NList} {κ : ℕ → ℕ → ℕ} {ms : List Msg} {st st' : ℕ → Proc} :
      MpiParts f rc mt np A L κ ms A0 L0 → (∀ p < np, centres (L p) = List.range (A p).nlocal) →
      (∀ p < np, Hist f P s0 (st p).s ∧ GhostTallyOk (A p) (L p) (st p).t) →
      computeMpi f.zbl P rc mt fl np A L ms st = some st' →
      Computes f P s0 Q rc mt fl A0 L0 (∑ p ∈ Finset.range np, ((st' p).t.eng - (st p).t.eng))
        (forceSum np A κ (fun p => (st p).t) (fun p => (st' p).t))
  | kkSingle {V : Kokkos.Pair.PEnv} {q : Kokkos.State ℝ} {w : Kokkos.Pair.Mem} {y : Tally} {k : Kokkos.Pair.Mem × Kokkos.State ℝ × Tally} :
      centres L0 = List.range L0.inum → HistK f Q q → TallyOk A0 L0 y →
      Kokkos.Pair.computeSingle V f.zbl Q rc mt fl A0 L0 w q y = some k →
      Computes f P s0 Q rc mt fl A0 L0 (k.2.2.eng - y.eng) (fun b c => nth k.2.2.f (3 * b + c) - nth y.f (3 * b + c))
  | kkNoMpi {np : ℕ} {A : ℕ → Atoms} {L : ℕ → NList} {κ : ℕ → ℕ → ℕ} {V : ℕ → Kokkos.Pair.PEnv} {q : ℕ → Kokkos.State ℝ}
      {wp : ℕ → Kokkos.Pair.Mem} {nii : ℕ → List ℕ} {tp : ℕ → Tally} {rp : ℕ → Kokkos.Pair.Mem × List ℕ × Kokkos.State ℝ × Tally} :
      GhostParts f rc mt np A L κ A0 L0 → (∀ p < np, HistG f Q (q p) ∧ GhostTallyOk (A p) (L p) (tp p)) →
      (∀ p < np, Kokkos.Pair.computeNoMpiK (V p) f.zbl Q rc mt fl (A p) (L p) (wp p) (nii p) (q p) (tp p) = some (rp p)) →
      Computes f P s0 Q rc mt fl A0 L0 (∑ p ∈ Finset.range np, ((rp p).2.2.2.eng - (tp p).eng)) (forceSum np A κ tp (fun p => (rp p).2.2.2))
  | kkMpi {np : ℕ} {A : ℕ → Atoms} {L : ℕ → NList} {κ : ℕ → ℕ → ℕ} {ms : List Msg} {V : ℕ → Kokkos.Pair.PEnv}
      {sk sk' : ℕ → Kokkos.Pair.ProcK} : MpiParts f rc mt np A L κ ms A0 L0 → (∀ p < np, centres (L p) = List.range (A p).nlocal) →
      HistM f Q np sk → (∀ p < np, GhostTallyOk (A p) (L p) (sk p).t) →
      Kokkos.Pair.computeMpiK V f.zbl Q rc mt fl np A L ms sk = some sk' →
      Computes f P s0 Q rc mt fl A0 L0 (∑ p ∈ Finset.range np, ((sk' p).t.eng - (sk p).t.eng))
        (forceSum np A κ (fun p => (sk p).t) (fun p => (sk' p).t))

/-- Newton's equations as `Newton`, where at every time the forces are computed in any of these ways: style, mode, number of processes,
division and communication plan may change from moment to moment. -/
structure NewtonBy (f : File) (sph : ℝ → ℝ → ℝ → ℕ → ℝ) (P : Params ℝ) (s0 : State ℝ) (Q : Kokkos.Params ℝ) (rc : ℝ) (mt : List ℕ) (L : NList)
    (A : Atoms) (m : ℕ → ℝ) (xs : ℝ → List ℝ) (v : ℝ → ℕ → ℕ → ℝ) (a b : ℝ) : Prop where
  run : ∀ t ∈ Set.Ioo a b, RunOk f rc mt L { A with x := xs t }
  scales : ∀ t ∈ Set.Ioo a b, ScalesNonzero f sph (periodic { A with x := xs t } L rc mt) (bondVecs { A with x := xs t } L rc)
  vel : ∀ t ∈ Set.Ioo a b, Moves A xs (v t) t
  acc : ∀ t ∈ Set.Ioo a b, ∃ fl U F, fl.vAtom = false ∧ Computes f P s0 Q rc mt fl { A with x := xs t } L U F ∧
    ∀ j < A.nlocal, ∀ c < 3, ∃ q, HasDerivAt (fun τ => v τ j c) q t ∧ m j * q = F j c

/-- A free cluster: no neighbour is the image of another atom. -/
def Free (A : Atoms) (L : NList) : Prop := ∀ i ∈ centres L, ∀ j ∈ listed L i, A.map (nthN A.tag j) = some j

/-- Component of the angular momentum in the plane of the directions `c`, `d`. -/
noncomputable def angular (n : ℕ) (m : ℕ → ℝ) (x : List ℝ) (v : ℕ → ℕ → ℝ) (c d : ℕ) : ℝ :=
  ∑ j ∈ Finset.range n, m j * (nth x (3 * j + c) * v j d - nth x (3 * j + d) * v j c)

section
variable {f : File} {ne : ℕ} {sph : ℝ → ℝ → ℝ → ℕ → ℝ} {dsph : ℝ → ℝ → ℝ → ℕ → ℕ → ℝ}
  {srt : List (List (List ℕ)) → List (List (List ℕ))} {junk : ℕ → ℕ → ℝ}

theorem forceSum_congr {np : ℕ} {A : ℕ → Atoms} {κ : ℕ → ℕ → ℕ} {t u u' : ℕ → Tally} (h : ∀ p < np, u p = u' p) :
    forceSum np A κ t u = forceSum np A κ t u' := by
  funext b c
  unfold forceSum
  refine Finset.sum_congr rfl (fun p hp => ?_)
  rw [h p (Finset.mem_range.mp hp)]

/-- Every way of computing gives the energy and forces of the CPU style in one process. -/
theorem computes_single (hf : FileOk f) (hk : FileOkK f ne) (hs : Poly.SortFn srt) (hsph : IsSphGrad sph dsph ((f.lmax + 1) * (f.lmax + 1)))
    {P : Params ℝ} {s0 : State ℝ} {Q : Kokkos.Params ℝ} (hP : load srt sph dsph f = some (P, s0))
    (hQ : Kokkos.load srt sph dsph junk ne f = some (Q, Kokkos.State.init ℝ)) {rc : ℝ} {mt : List ℕ} {fl : Flags} {A0 : Atoms} {L0 : NList}
    (hR : RunOk f rc mt L0 A0) (hn : ScalesNonzero f sph (periodic A0 L0 rc mt) (bondVecs A0 L0 rc)) (hv : fl.vAtom = false)
    {U : ℝ} {F : ℕ → ℕ → ℝ} (h : Computes f P s0 Q rc mt fl A0 L0 U F) :
    ∃ s w y r, Hist f P s0 s ∧ TallyOk A0 L0 y ∧ computeSingle f.zbl P rc mt fl A0 L0 w s y = some r ∧ U = r.2.2.eng - y.eng ∧
      ∀ b < A0.nlocal, ∀ c < 3, F b c = nth r.2.2.f (3 * b + c) - nth y.f (3 * b + c) := by
  let w0 : Work := ⟨[], [], [], [], [], [], [], []⟩
  let y0 : Tally := ⟨0, List.replicate L0.inum 0, List.replicate (A0.nlocal * 3) 0, List.replicate 6 0⟩
  have hy0 : TallyOk A0 L0 y0 := ⟨⟨A0.nlocal, le_rfl, by simp [y0]⟩, by simp [y0], by simp [y0]⟩
  cases h with
  | single hh hy e => exact ⟨_, _, _, _, hh, hy, e, rfl, fun _ _ _ _ => rfl⟩
  | @noMpi np A L κ sp wp tp old rp hp hst e =>
    obtain ⟨P', s0', a1, a2⟩ := C44_no_mpi f sph dsph hf hs hsph
    rw [hP] at a1
    cases a1
    obtain ⟨r, rp', r1, r2, r3, -, r5⟩ := a2 rc mt np A L κ A0 L0 hR hp fl hv s0 w0 y0 .init hy0 sp wp tp old hst
    have hr : ∀ p < np, rp p = rp' p := fun p hp' => Option.some.inj ((e p hp').symm.trans (r2 p hp'))
    refine ⟨s0, w0, y0, r, .init, hy0, r1, ?_, fun b hb c hc => ?_⟩
    · rw [← r3]
      exact Finset.sum_congr rfl (fun p hp' => by rw [hr p (Finset.mem_range.mp hp')])
    · rw [← (r5 hn).1 b hb c hc, forceSum_congr (fun p hp' => by rw [hr p hp'])]
  | @mpi np A L κ ms st st' hp ho hst e =>
    obtain ⟨P', s0', a1, a2⟩ := C43_mpi_partial f sph dsph hf hs hsph
    rw [hP] at a1
    cases a1
    obtain ⟨r, st'', r1, r2, r3, -, r5⟩ := a2 rc mt np A L κ ms A0 L0 hR hp ho fl hv s0 w0 y0 .init hy0 st hst
    rw [e] at r2
    cases r2
    exact ⟨s0, w0, y0, r, .init, hy0, r1, r3, fun b hb c hc => (r5 hn).1 b hb c hc⟩
  | @kkSingle V q w y k ho hq hy e =>
    obtain ⟨P', s0', Q', a1, a2, a3⟩ := C64_pair_equals_cpu (sph := sph) (dsph := dsph) (junk := junk) hf hk hs
    rw [hP] at a1
    rw [hQ] at a2
    cases a1
    cases a2
    obtain ⟨r, k', r1, r2, -, r3, r4, -⟩ := a3 rc mt L0 A0 hR ho s0 .init q hq V w0 w fl y hv hy
    rw [e] at r2
    cases r2
    exact ⟨s0, w0, y, r, .init, hy, r1, by rw [r3], fun b _ c _ => by rw [r4]⟩
  | @kkNoMpi np A L κ V q wp nii tp rp hp hst e =>
    obtain ⟨P', s0', Q', a1, a2, a3⟩ := C69_no_mpi_division (sph := sph) (dsph := dsph) (junk := junk) hf hk hs hsph
    rw [hP] at a1
    rw [hQ] at a2
    cases a1
    cases a2
    obtain ⟨r, rp', r1, r2, r3, -, r5⟩ := a3 rc mt np A L κ A0 L0 hR hp fl hv s0 w0 y0 .init hy0 V q wp nii tp hst
    have hr : ∀ p < np, rp p = rp' p := fun p hp' => Option.some.inj ((e p hp').symm.trans (r2 p hp'))
    refine ⟨s0, w0, y0, r, .init, hy0, r1, ?_, fun b hb c hc => ?_⟩
    · rw [← r3]
      exact Finset.sum_congr rfl (fun p hp' => by rw [hr p (Finset.mem_range.mp hp')])
    · rw [← (r5 hn).1 b hb c hc, forceSum_congr (fun p hp' => by rw [hr p hp'])]
  | @kkMpi np A L κ ms V sk sk' hp ho hq hst e =>
    obtain ⟨P', s0', Q', a1, a2, a3⟩ := C71_mpi_division_partial (sph := sph) (dsph := dsph) (junk := junk) hf hk hs hsph
    rw [hP] at a1
    rw [hQ] at a2
    cases a1
    cases a2
    obtain ⟨r, sk'', r1, r2, r3, -, r5⟩ := a3 rc mt np A L κ ms A0 L0 hR hp ho fl hv s0 w0 y0 .init hy0 V sk hq hst
    rw [e] at r2
    cases r2
    exact ⟨s0, w0, y0, r, .init, hy0, r1, r3, fun b hb c hc => (r5 hn).1 b hb c hc⟩

theorem newtonBy_newton (hf : FileOk f) (hk : FileOkK f ne) (hs : Poly.SortFn srt) (hsph : IsSphGrad sph dsph ((f.lmax + 1) * (f.lmax + 1)))
    {P : Params ℝ} {s0 : State ℝ} {Q : Kokkos.Params ℝ} (hP : load srt sph dsph f = some (P, s0))
    (hQ : Kokkos.load srt sph dsph junk ne f = some (Q, Kokkos.State.init ℝ)) {rc : ℝ} {mt : List ℕ} {A : Atoms} {L : NList}
    {m : ℕ → ℝ} {xs : ℝ → List ℝ} {v : ℝ → ℕ → ℕ → ℝ} {a b : ℝ} (h : NewtonBy f sph P s0 Q rc mt L A m xs v a b) :
    Newton f sph P s0 rc mt L A m xs v a b := by
  refine ⟨h.run, h.scales, h.vel, fun t ht => ?_⟩
  obtain ⟨fl, U, F, hv, hF, hq⟩ := h.acc t ht
  obtain ⟨s, w, y, r, h1, h2, h3, -, h5⟩ := computes_single hf hk hs hsph hP hQ (h.run t ht) (h.scales t ht) hv hF
  refine ⟨s, w, fl, y, r, h1, hv, ⟨h2.f, h2.virial, h2.eatom⟩, h3, fun j hj c hc => ?_⟩
  obtain ⟨q, q1, q2⟩ := hq j hj c hc
  exact ⟨q, q1, q2.trans (h5 j hj c hc)⟩

end

section props
variable (f : File) (ne : ℕ) (sph : ℝ → ℝ → ℝ → ℕ → ℝ) (dsph : ℝ → ℝ → ℝ → ℕ → ℕ → ℝ) (junk : ℕ → ℕ → ℝ)
variable {srt : List (List (List ℕ)) → List (List (List ℕ))}

/-- C113, forces: whatever the style, mode, division and history, the same atoms get the same energy and forces. -/
theorem C113_same (hf : FileOk f) (hk : FileOkK f ne) (hs : Poly.SortFn srt) (hsph : IsSphGrad sph dsph ((f.lmax + 1) * (f.lmax + 1))) :
    ∃ P s0 Q, load srt sph dsph f = some (P, s0) ∧ Kokkos.load srt sph dsph junk ne f = some (Q, Kokkos.State.init ℝ) ∧
      ∀ rc mt L A, RunOk f rc mt L A → ScalesNonzero f sph (periodic A L rc mt) (bondVecs A L rc) →
        ∀ fl, fl.vAtom = false → ∀ U U' F F', Computes f P s0 Q rc mt fl A L U F → Computes f P s0 Q rc mt fl A L U' F' →
          U = U' ∧ ∀ b < A.nlocal, ∀ c < 3, F b c = F' b c := by
  obtain ⟨P, s0, h1, h2, h3⟩ := load_spec hf hs sph dsph
  obtain ⟨Q, k1, -⟩ := Kokkos.load_spec hf hk hs sph dsph junk
  refine ⟨P, s0, Q, h1, k1, fun rc mt L A hR hn fl hv U U' F F' hF hF' => ?_⟩
  obtain ⟨s, w, y, r, a1, a2, a3, a4, a5⟩ := computes_single hf hk hs hsph h1 k1 hR hn hv hF
  obtain ⟨s', w', y', r', b1, b2, b3, b4, b5⟩ := computes_single hf hk hs hsph h1 k1 hR hn hv hF'
  obtain ⟨x, x1, x2, -, x4, -⟩ := single_result hf h2 hR (a1.ok hf h2 h3) w hv a2
  obtain ⟨x', z1, z2, -, z4, -⟩ := single_result hf h2 hR (b1.ok hf h2 h3) w' hv b2
  rw [a3] at x1
  rw [b3] at z1
  cases x1
  cases z1
  refine ⟨?_, fun b hb c hc => ?_⟩
  · rw [a4, b4, x2, z2]
    split_ifs <;> ring
  · rw [a5 b hb c hc, b5 b hb c hc, x4 b hb c hc, z4 b hb c hc]
    ring

/-- C113, energy: kinetic energy plus the energy of the pair style is constant along every solution. -/
theorem C113_energy (hf : FileOk f) (hk : FileOkK f ne) (hs : Poly.SortFn srt) (hsph : IsSphDiff sph dsph ((f.lmax + 1) * (f.lmax + 1))) :
    ∃ P s0 Q, load srt sph dsph f = some (P, s0) ∧ Kokkos.load srt sph dsph junk ne f = some (Q, Kokkos.State.init ℝ) ∧
      ∀ rc mt L, FadesOut f rc → FadesFlat f → ∃ E : Atoms → ℝ,
      (∀ A, RunOk f rc mt L A → ScalesNonzero f sph (periodic A L rc mt) (bondVecs A L rc) → ∀ fl, fl.vAtom = false → fl.eGlobal →
        ∀ U F, Computes f P s0 Q rc mt fl A L U F → U = E A) ∧
      ∀ A m xs v a b, NewtonBy f sph P s0 Q rc mt L A m xs v a b → ∀ t1 ∈ Set.Ioo a b, ∀ t2 ∈ Set.Ioo a b,
        kinetic A.nlocal m (v t1) + E { A with x := xs t1 } = kinetic A.nlocal m (v t2) + E { A with x := xs t2 } := by
  obtain ⟨P, s0, h1, h2⟩ := C107_energy f sph dsph hf hs hsph
  obtain ⟨Q, k1, -⟩ := Kokkos.load_spec hf hk hs sph dsph junk
  refine ⟨P, s0, Q, h1, k1, fun rc mt L hF hS => ?_⟩
  obtain ⟨E, e1, e2⟩ := h2 rc mt L hF hS
  refine ⟨E, fun A hR hn fl hv hg U F hU => ?_, fun A m xs v a b hN => e2 A m xs v a b (newtonBy_newton hf hk hs hsph.grad h1 k1 hN)⟩
  obtain ⟨s, w, y, r, a1, a2, a3, a4, -⟩ := computes_single hf hk hs hsph.grad h1 k1 hR hn hv hU
  obtain ⟨r', b1, b2⟩ := e1 A hR s a1 w fl y hv hg a2
  rw [a3] at b1
  cases b1
  rw [a4, b2, add_sub_cancel_left]

/-- C113, momentum: the total momentum is constant along every solution. -/
theorem C113_momentum (hf : FileOk f) (hk : FileOkK f ne) (hs : Poly.SortFn srt) (hsph : IsSphGrad sph dsph ((f.lmax + 1) * (f.lmax + 1))) :
    ∃ P s0 Q, load srt sph dsph f = some (P, s0) ∧ Kokkos.load srt sph dsph junk ne f = some (Q, Kokkos.State.init ℝ) ∧
      ∀ rc mt L A m xs v a b, NewtonBy f sph P s0 Q rc mt L A m xs v a b →
      ∀ t1 ∈ Set.Ioo a b, ∀ t2 ∈ Set.Ioo a b, ∀ c < 3, momentum A.nlocal m (v t1) c = momentum A.nlocal m (v t2) c := by
  obtain ⟨P, s0, h1, h2⟩ := C107_momentum f sph dsph hf hs
  obtain ⟨Q, k1, -⟩ := Kokkos.load_spec hf hk hs sph dsph junk
  exact ⟨P, s0, Q, h1, k1, fun rc mt L A m xs v a b hN => h2 rc mt L A m xs v a b (newtonBy_newton hf hk hs hsph h1 k1 hN)⟩

variable {f sph dsph} in
/-- The forces on a free cluster have no torque. -/
theorem no_torque (hf : FileOk f) (hsph : IsSphGrad sph dsph ((f.lmax + 1) * (f.lmax + 1))) (hE : Equivariant f sph) {P : Params ℝ}
    (hP : Loaded f sph dsph P) {rc : ℝ} {mt : List ℕ} {A : Atoms} {L : NList} (hR : RunOk f rc mt L A)
    (hn : ScalesNonzero f sph (periodic A L rc mt) (bondVecs A L rc)) (hfree : Free A L) {s : State ℝ} (hs : StOk f s) {w : Work} {fl : Flags}
    (hv : fl.vAtom = false) {y : Tally} (hy : TallyOk A L y) {r : Work × State ℝ × Tally}
    (e : computeSingle f.zbl P rc mt fl A L w s y = some r) {c d : ℕ} (hc : c < 3) (hd : d < 3) :
    ∑ b ∈ Finset.range A.nlocal, nth A.x (3 * b + c) * (nth r.2.2.f (3 * b + d) - nth y.f (3 * b + d)) =
      ∑ b ∈ Finset.range A.nlocal, nth A.x (3 * b + d) * (nth r.2.2.f (3 * b + c) - nth y.f (3 * b + c)) := by
  obtain ⟨r', r1, _, _, r4, _⟩ := single_result hf hP hR hs w hv hy
  rw [e] at r1
  cases r1
  have key := edge_torque hf hsph hE (periodic_ok (rc := rc) hR.atoms hR.list hR.images) hR.inside hn hs hc hd
  have hEE : (periodic A L rc mt).E = (bonds A L rc (centres L)).length := sysOf_E _ _
  rw [hEE] at key
  have hw : ∀ c < 3, ∀ d < 3, ∑ b ∈ Finset.range A.nlocal, nth A.x (3 * b + c) * (nth r.2.2.f (3 * b + d) - nth y.f (3 * b + d)) =
      ∑ e ∈ Finset.range (bonds A L rc (centres L)).length,
        bondVecs A L rc e c * forceOf f sph dsph (periodic A L rc mt) (bondVecs A L rc) e d := by
    intro c hc d hd
    have := work_eq (F0 := fun b c => nth y.f (3 * b + c)) (F1 := fun b c => nth r.2.2.f (3 * b + c)) hR.list hR.images
      (fun b c' => if c' = d then nth A.x (3 * b + c) else 0) r4
    simp only [mul_ite, mul_zero, Finset.sum_ite_eq', Finset.mem_range, hd, if_true, edgeDir] at this
    rw [Finset.sum_congr rfl (fun b _ => mul_comm _ _), this]
    refine Finset.sum_congr rfl (fun e he => ?_)
    have hm := ends_mem (Finset.mem_range.mp he)
    have o1 : original A (endA A L rc (centres L) e) = endA A L rc (centres L) e := by rw [original, hR.images.self _ hm.1]; rfl
    have o2 : original A (endB A L rc (centres L) e) = endB A L rc (centres L) e := by
      rw [original, hfree _ hm.1 _ (mem_nbrs_listed hm.2)]; rfl
    rw [Finset.sum_eq_single d]
    · simp only [if_true, o1, o2]
      rw [mul_comm]
      rfl
    · intro c' _ hne
      simp [hne]
    · intro h
      exact absurd (Finset.mem_range.mpr hd) h
  rw [hw c hc d hd, hw d hd c hc]
  exact key

/-- C113, angular momentum: for a model that respects rotations the angular momentum of a free cluster is constant. -/
theorem C113_angular (hf : FileOk f) (hk : FileOkK f ne) (hs : Poly.SortFn srt) (hsph : IsSphGrad sph dsph ((f.lmax + 1) * (f.lmax + 1)))
    (hE : Equivariant f sph) :
    ∃ P s0 Q, load srt sph dsph f = some (P, s0) ∧ Kokkos.load srt sph dsph junk ne f = some (Q, Kokkos.State.init ℝ) ∧
      ∀ rc mt L A m xs v a b, NewtonBy f sph P s0 Q rc mt L A m xs v a b → Free A L → (∀ j < A.nlocal, A.map (nthN A.tag j) = some j) →
      ∀ t1 ∈ Set.Ioo a b, ∀ t2 ∈ Set.Ioo a b, ∀ c < 3, ∀ d < 3,
        angular A.nlocal m (xs t1) (v t1) c d = angular A.nlocal m (xs t2) (v t2) c d := by
  obtain ⟨P, s0, h1, h2, h3⟩ := load_spec hf hs sph dsph
  obtain ⟨Q, k1, -⟩ := Kokkos.load_spec hf hk hs sph dsph junk
  refine ⟨P, s0, Q, h1, k1, fun rc mt L A m xs v a b hB hfree hself t1 ht1 t2 ht2 c hc d hd => ?_⟩
  have hN := newtonBy_newton hf hk hs hsph h1 k1 hB
  refine const_on (g := fun t => angular A.nlocal m (xs t) (v t) c d) (fun t ht => ?_) ht1 ht2
  obtain ⟨s, w, fl, y, r, hh, hfl, hy, hr, hq⟩ := hN.acc t ht
  have hz := no_torque hf hsph hE h2 (hN.run t ht) (hN.scales t ht) hfree (hh.ok hf h2 h3) hfl (y := y) ⟨hy.f, hy.virial, hy.eatom⟩ hr hc hd
  have hdv : HasDerivAt (fun τ => angular A.nlocal m (xs τ) (v τ) c d)
      (∑ j ∈ Finset.range A.nlocal, (nth (xs t) (3 * j + c) * (nth r.2.2.f (3 * j + d) - nth y.f (3 * j + d))
        - nth (xs t) (3 * j + d) * (nth r.2.2.f (3 * j + c) - nth y.f (3 * j + c)))) t := by
    unfold angular
    refine HasDerivAt.fun_sum (fun j hj => ?_)
    have hj := Finset.mem_range.mp hj
    obtain ⟨p, p1, p2⟩ := hq j hj c hc
    obtain ⟨q, q1, q2⟩ := hq j hj d hd
    have x1 := hN.vel t ht j (by omega) j (hself j hj) c hc
    have x2 := hN.vel t ht j (by omega) j (hself j hj) d hd
    rw [← p2, ← q2]
    refine (((x1.mul q1).sub (x2.mul p1)).const_mul (m j)).congr_deriv ?_
    ring
  refine hdv.congr_deriv ?_
  rw [Finset.sum_sub_distrib]
  exact sub_eq_zero.mpr hz

end props

/-! ## Examples -/

/-- The forces only depend on the bond vectors of the edges. -/
theorem forceOf_congr {f : File} {sph : ℝ → ℝ → ℝ → ℕ → ℝ} {dsph : ℝ → ℝ → ℝ → ℕ → ℕ → ℝ} {P : Params ℝ} (hf : FileOk f)
    (hP : Loaded f sph dsph P) {T : Sys} (hT : SysOk f T) {X X' : ℕ → ℕ → ℝ} (hX : Inside f T X) (hX' : Inside f T X') {s : State ℝ}
    (hs : StOk f s) (h : ∀ e < T.E, ∀ a < 3, X e a = X' e a) {e a : ℕ} (he : e < T.E) (ha : a < 3) :
    forceOf f sph dsph T X e a = forceOf f sph dsph T X' e a := by
  have hg : T.graph X = T.graph X' := by
    unfold Sys.graph
    congr 1
    · refine List.map_congr_left (fun p hp => ?_)
      have := List.mem_range.mp hp
      exact h _ (by omega) _ (by omega)
    · refine List.map_congr_left (fun q hq => ?_)
      unfold len
      congr 1
      refine Finset.sum_congr rfl (fun b hb => ?_)
      rw [h q (List.mem_range.mp hq) b (Finset.mem_range.mp hb)]
  obtain ⟨s1, a1, -, a3, -⟩ := compute_spec hf hT hP hX hs
  obtain ⟨s2, b1, -, b3, -⟩ := compute_spec hf hT hP hX' hs
  rw [hg, b1] at a1
  cases a1
  have := b3.symm.trans a3
  rw [← nth_tab2 (g := forceOf f sph dsph T X) he ha, ← this, nth_tab2 he ha]

/-- Two atoms without images. -/
def exPair : Atoms where
  nlocal := 2
  nghost := 0
  x := [0, 0, 0, 0, 0, 0]
  type := [1, 2]
  tag := [5, 6]
  map := fun t => if t = 5 then some 0 else if t = 6 then some 1 else none

def exPairList : NList := ⟨2, [0, 1], [1, 1], [[1], [0]]⟩

/-- They circle each other at distance one. -/
noncomputable def exOrbit (t : ℝ) : List ℝ := [-(Real.cos t / 2), -(Real.sin t / 2), 0, Real.cos t / 2, Real.sin t / 2, 0]

noncomputable def exSpeed (t : ℝ) (j c : ℕ) : ℝ :=
  (if j = 0 then -1 else 1) * (if c = 0 then -(Real.sin t / 2) else if c = 1 then Real.cos t / 2 else 0)

theorem exPair_ok : AtomsOk exPair [0, 1] 2 ∧ ListOk exPair exPairList ∧ ImagesOk exPair exPairList ∧ Free exPair exPairList := by
  have hc : ∀ i ∈ centres exPairList, i = 0 ∨ i = 1 := by intro i hi; simpa [centres, exPairList] using hi
  have l0 : listed exPairList 0 = [1] := by decide
  have l1 : listed exPairList 1 = [0] := by decide
  have hself : ∀ j < 2, exPair.map (nthN exPair.tag j) = some j := by decide
  refine ⟨⟨by decide, by decide, by decide, by decide⟩, ⟨by decide, by decide, by decide, fun i hi => ?_⟩, ⟨by decide, fun i hi j hj => ?_,
    fun i hi => ?_⟩, fun i hi j hj => ?_⟩
  · rcases hc i hi with rfl | rfl <;> exact ⟨by decide, by decide, by decide, by decide, by decide⟩
  · rcases hc i hi with rfl | rfl
    · rw [l0] at hj
      obtain rfl := List.mem_singleton.mp hj
      exact ⟨1, rfl, by decide⟩
    · rw [l1] at hj
      obtain rfl := List.mem_singleton.mp hj
      exact ⟨0, rfl, by decide⟩
  · rcases hc i hi with rfl | rfl <;> rfl
  · rcases hc i hi with rfl | rfl
    · rw [l0] at hj
      obtain rfl := List.mem_singleton.mp hj
      rfl
    · rw [l1] at hj
      obtain rfl := List.mem_singleton.mp hj
      rfl

theorem exOrbit_bonds (t : ℝ) : bonds { exPair with x := exOrbit t } exPairList (3 / 2) (centres exPairList) = [(0, 1), (1, 0)] ∧
    periodic { exPair with x := exOrbit t } exPairList (3 / 2) [0, 1] = exSys := by
  have l0 : listed exPairList 0 = [1] := by decide
  have l1 : listed exPairList 1 = [0] := by decide
  have hcs := Real.sin_sq_add_cos_sq t
  have n0 : nbrs { exPair with x := exOrbit t } exPairList (3 / 2) 0 = [1] := by
    simp [nbrs, l0, disp, pos, exOrbit, nth, Finset.sum_range_succ]
    nlinarith
  have n1 : nbrs { exPair with x := exOrbit t } exPairList (3 / 2) 1 = [0] := by
    simp [nbrs, l1, disp, pos, exOrbit, nth, Finset.sum_range_succ]
    nlinarith
  have hc : centres exPairList = [0, 1] := rfl
  have hb : bonds { exPair with x := exOrbit t } exPairList (3 / 2) (centres exPairList) = [(0, 1), (1, 0)] := by
    simp [bonds, hc, n0, n1]
  refine ⟨hb, ?_⟩
  unfold periodic Lammps.sysOf
  rw [hb, hc]
  simp only [List.map_cons, List.map_nil, n0, n1]
  rfl

theorem exOrbit_vecs (t : ℝ) : ∀ e < 2, ∀ a < 3, bondVecs { exPair with x := exOrbit t } exPairList (3 / 2) e a =
    rotate (planeTurn 0 1 (Real.cos t) (-Real.sin t)) exX e a := by
  intro e he a ha
  unfold bondVecs Lammps.vecs
  rw [(exOrbit_bonds t).1]
  interval_cases e <;> interval_cases a <;>
    simp [disp, pos, exOrbit, nth, rotate, Finset.sum_range_succ, planeTurn, exX] <;> ring

theorem exTurn_ok (t : ℝ) : Orthonormal3 (planeTurn 0 1 (Real.cos t) (-Real.sin t)) :=
  planeTurn_orthonormal (by norm_num) (by norm_num) (by norm_num) (by nlinarith [Real.sin_sq_add_cos_sq t])

theorem exOrbit_len (t : ℝ) : ∀ e < 2, len (bondVecs { exPair with x := exOrbit t } exPairList (3 / 2) e) = len (exX e) := by
  intro e he
  have : len (bondVecs { exPair with x := exOrbit t } exPairList (3 / 2) e) = len (rotate (planeTurn 0 1 (Real.cos t) (-Real.sin t)) exX e) := by
    unfold len
    congr 1
    refine Finset.sum_congr rfl (fun a ha => ?_)
    rw [exOrbit_vecs t e he a (Finset.mem_range.mp ha)]
  rw [this, len_rotate (exTurn_ok t)]

theorem exOrbit_run (t : ℝ) : RunOk rotFile (3 / 2) [0, 1] exPairList { exPair with x := exOrbit t } ∧
    ScalesNonzero rotFile exSph (periodic { exPair with x := exOrbit t } exPairList (3 / 2) [0, 1])
      (bondVecs { exPair with x := exOrbit t } exPairList (3 / 2)) := by
  have hT := (exOrbit_bonds t).2
  refine ⟨⟨place_ok (x := exOrbit t) rfl exPair_ok.1, place_list (x := exOrbit t) exPair_ok.2.1, place_images (x := exOrbit t) exPair_ok.2.2.1, ?_⟩, ?_⟩
  · rw [hT]
    intro e he
    rw [exOrbit_len t e he]
    exact rotInside e he
  · rw [hT]
    intro i hi
    have h2 : i < 2 := hi
    have hp : ∀ i < 2, edgePair rotFile exSys i = 1 := by
      intro j hj
      have ho : exSys.owner j = j := by
        refine owner_eq (T := exSys) hj ?_
        interval_cases j <;> decide
      unfold edgePair
      rw [ho]
      interval_cases j <;> decide
    refine ⟨?_, ?_⟩
    · have e : exSys.edg i = {i} := by interval_cases i <;> rfl
      simp only [confOf]
      rw [if_pos (by rfl), e, Finset.sum_singleton, hp i h2, exOrbit_len t i h2, exLen h2]
      have hv : row rotFile.A0vals 1 = [1, 1, 1] := rfl
      have hd : row rotFile.A0ders 1 = [0, 0, 0] := rfl
      have hh : rotFile.A0h = 1 := rfl
      rw [hv, hd, hh]
      norm_num [hermite, hermite01, nth]
    · simp [confOf, rotFile, exFile]

theorem exRot : Equivariant rotFile exSph := fun Q hQ => ⟨rotD Q, rotD_sph Q, rot_intertwines hQ⟩

theorem exOrbit_moves (t : ℝ) : Moves exPair exOrbit (exSpeed t) t := by
  have hc : HasDerivAt (fun τ => Real.cos τ / 2) (-(Real.sin t / 2)) t := by
    simpa [neg_div] using (Real.hasDerivAt_cos t).div_const 2
  have hs : HasDerivAt (fun τ => Real.sin τ / 2) (Real.cos t / 2) t := (Real.hasDerivAt_sin t).div_const 2
  intro j hj o ho c hc3
  have hj : j < 2 := hj
  interval_cases j
  · cases ho
    interval_cases c
    · simpa [exOrbit, exSpeed, nth] using hc.fun_neg
    · simpa [exOrbit, exSpeed, nth] using hs.fun_neg
    · simpa [exOrbit, exSpeed, nth] using hasDerivAt_const t (0 : ℝ)
  · cases ho
    interval_cases c
    · simpa [exOrbit, exSpeed, nth] using hc
    · simpa [exOrbit, exSpeed, nth] using hs
    · simpa [exOrbit, exSpeed, nth] using hasDerivAt_const t (0 : ℝ)

theorem exSpeed_deriv (t : ℝ) {j c : ℕ} (hj : j < 2) (hc3 : c < 3) :
    HasDerivAt (fun τ => exSpeed τ j c) (-(nth (exOrbit t) (3 * j + c))) t := by
  have hc : HasDerivAt (fun τ => Real.cos τ / 2) (-(Real.sin t / 2)) t := by
    simpa [neg_div] using (Real.hasDerivAt_cos t).div_const 2
  have hs : HasDerivAt (fun τ => Real.sin τ / 2) (Real.cos t / 2) t := (Real.hasDerivAt_sin t).div_const 2
  interval_cases j <;> interval_cases c
  · simpa [exOrbit, exSpeed, nth] using hs
  · simpa [exOrbit, exSpeed, nth] using hc.fun_neg
  · simpa [exOrbit, exSpeed, nth] using hasDerivAt_const t (0 : ℝ)
  · simpa [exOrbit, exSpeed, nth] using hs.fun_neg
  · simpa [exOrbit, exSpeed, nth] using hc
  · simpa [exOrbit, exSpeed, nth] using hasDerivAt_const t (0 : ℝ)

/-- Two atoms of a model that respects rotations on a circular orbit, forces computed by the Kokkos style: a solution of Newton's
equations for a suitable mass; the angular momentum of the motion is the mass over two. -/
example {srt : List (List (List ℕ)) → List (List (List ℕ))} (hs : Poly.SortFn srt) (V : Kokkos.Pair.PEnv) (junk : ℕ → ℕ → ℝ) :
    ∃ P s0 Q μ, load srt exSph exDsph rotFile = some (P, s0) ∧ Kokkos.load srt exSph exDsph junk 2 rotFile = some (Q, Kokkos.State.init ℝ) ∧
      NewtonBy rotFile exSph P s0 Q (3 / 2) [0, 1] exPairList exPair (fun _ => μ) exOrbit exSpeed (-1) 1 ∧
      Equivariant rotFile exSph ∧ Free exPair exPairList ∧ (∀ j < exPair.nlocal, exPair.map (nthN exPair.tag j) = some j) ∧
      angular exPair.nlocal (fun _ => μ) (exOrbit 0) (exSpeed 0) 0 1 = μ / 2 := by
  obtain ⟨P, s0, h1, h2, h3⟩ := load_spec rotFile_ok hs exSph exDsph
  obtain ⟨P', s0', Q, a1, k1, k2⟩ := C64_pair_equals_cpu (sph := exSph) (dsph := exDsph) (junk := junk) rotFile_ok rotFile_okK hs
  rw [h1] at a1
  cases a1
  have hT : SysOk rotFile exSys := ⟨by decide, by decide, by decide, by decide, by decide, by decide, by decide⟩
  have hst : StOk rotFile s0 := Hist.ok rotFile_ok h2 h3 Hist.init
  set G := forceOf rotFile exSph exDsph exSys exX with hG
  have hsph : IsSphGrad exSph exDsph ((rotFile.lmax + 1) * (rotFile.lmax + 1)) := exSph_ok
  have d1 : G 0 1 - G 1 1 = 0 := by
    have := edge_torque rotFile_ok hsph exRot hT rotInside rotScales hst (show 0 < 3 by omega) (show 1 < 3 by omega)
    have hE : exSys.E = 2 := rfl
    rw [hE] at this
    simp [Finset.sum_range_succ, exX] at this
    linarith
  have d2 : G 0 2 - G 1 2 = 0 := by
    have := edge_torque rotFile_ok hsph exRot hT rotInside rotScales hst (show 0 < 3 by omega) (show 2 < 3 by omega)
    have hE : exSys.E = 2 := rfl
    rw [hE] at this
    simp [Finset.sum_range_succ, exX] at this
    linarith
  refine ⟨P, s0, Q, -2 * (G 0 0 - G 1 0), h1, k1, ⟨fun t _ => (exOrbit_run t).1, fun t _ => (exOrbit_run t).2, fun t _ => exOrbit_moves t,
    fun t _ => ?_⟩, exRot, exPair_ok.2.2.2, by decide, ?_⟩
  · have hy : TallyOk { exPair with x := exOrbit t } exPairList ⟨0, [0, 0], [0, 0, 0, 0, 0, 0], [0, 0, 0, 0, 0, 0]⟩ :=
      ⟨⟨2, le_rfl, by simp⟩, by simp, by simp [exPairList]⟩
    obtain ⟨r, k, r1, r2, -, -, r3, -⟩ := k2 (3 / 2) [0, 1] exPairList _ (exOrbit_run t).1 rfl s0 .init _ .init V
      (⟨[], [], [], [], [], [], [], []⟩ : Work) ⟨[], [], [], [], [], [], [], []⟩ ⟨true, true, true, false⟩ _ rfl hy
    refine ⟨⟨true, true, true, false⟩, _, _, rfl, .kkSingle rfl .init hy r2, fun j hj c hc => ⟨_, exSpeed_deriv t hj hc, ?_⟩⟩
    obtain ⟨r', b1, -, -, b4, -⟩ := single_result rotFile_ok h2 (exOrbit_run t).1 hst (⟨[], [], [], [], [], [], [], []⟩ : Work)
      (fl := ⟨true, true, true, false⟩) rfl hy
    rw [r1] at b1
    cases b1
    have hj : j < 2 := hj
    rw [r3, b4 j hj c hc, add_sub_cancel_left]
    have hb := (exOrbit_bonds t).1
    have hlen : (bonds { exPair with x := exOrbit t } exPairList (3 / 2) (centres exPairList)).length = 2 := by rw [hb]; rfl
    have hA : ∀ e < 2, endA { exPair with x := exOrbit t } exPairList (3 / 2) (centres exPairList) e = e := by
      intro e he; unfold endA; rw [hb]; interval_cases e <;> rfl
    have hB : ∀ e < 2, original { exPair with x := exOrbit t } (endB { exPair with x := exOrbit t } exPairList (3 / 2) (centres exPairList) e)
        = 1 - e := by
      intro e he; unfold endB; rw [hb]; interval_cases e <;> rfl
    have hF : ∀ e < 2, forceOf rotFile exSph exDsph (periodic { exPair with x := exOrbit t } exPairList (3 / 2) [0, 1])
        (bondVecs { exPair with x := exOrbit t } exPairList (3 / 2)) e c
        = ∑ b ∈ Finset.range 3, planeTurn 0 1 (Real.cos t) (-Real.sin t) c b * G e b := by
      intro e he
      have hin := (exOrbit_run t).1.inside
      rw [(exOrbit_bonds t).2] at hin ⊢
      have hin' : Inside rotFile exSys (rotate (planeTurn 0 1 (Real.cos t) (-Real.sin t)) exX) := fun e he => by
        rw [len_rotate (exTurn_ok t)]; exact rotInside e he
      rw [forceOf_congr rotFile_ok h2 hT hin hin' hst (exOrbit_vecs t) he hc]
      exact force_rotate rotFile_ok hsph (exTurn_ok t) (rotD_sph _) (rot_intertwines (exTurn_ok t)) hT rotInside rotScales hst he hc
    rw [hlen, Finset.sum_range_succ, Finset.sum_range_succ, Finset.sum_range_zero, hF 0 (by omega), hF 1 (by omega), hA 0 (by omega),
      hA 1 (by omega), hB 0 (by omega), hB 1 (by omega)]
    have e1 : G 0 1 = G 1 1 := by linarith
    have e2 : G 0 2 = G 1 2 := by linarith
    interval_cases j <;> interval_cases c <;> simp [Finset.sum_range_succ, planeTurn, exOrbit, nth, e1, e2] <;> ring
  · have hn : exPair.nlocal = 2 := rfl
    rw [hn]
    simp [angular, Finset.sum_range_succ, exOrbit, exSpeed, nth]
    ring

/-- Calls in the two parallel modes of both styles, on two processes. -/
example {srt : List (List (List ℕ)) → List (List (List ℕ))} (hs : Poly.SortFn srt) (V : Kokkos.Pair.PEnv) (junk : ℕ → ℕ → ℝ) :
    ∃ P s0 Q, load srt exSph exDsph exFile = some (P, s0) ∧ Kokkos.load srt exSph exDsph junk 2 exFile = some (Q, Kokkos.State.init ℝ) ∧
      ∃ (rp : ℕ → Work × State ℝ × Tally) (st' : ℕ → Proc) (kp : ℕ → Kokkos.Pair.Mem × List ℕ × Kokkos.State ℝ × Tally)
        (sk' : ℕ → Kokkos.Pair.ProcK) (tp : ℕ → Tally),
        Computes exFile P s0 Q (3 / 2) [0, 1] ⟨true, true, true, false⟩ exAtoms exList (∑ p ∈ Finset.range 2, ((rp p).2.2.eng - (tp p).eng))
          (forceSum 2 exPartAtoms exPartId tp (fun p => (rp p).2.2)) ∧
        Computes exFile P s0 Q (3 / 2) [0, 1] ⟨true, true, true, false⟩ exAtoms exList (∑ p ∈ Finset.range 2, ((st' p).t.eng - (tp p).eng))
          (forceSum 2 exPartAtoms exPartId tp (fun p => (st' p).t)) ∧
        Computes exFile P s0 Q (3 / 2) [0, 1] ⟨true, true, true, false⟩ exAtoms exList (∑ p ∈ Finset.range 2, ((kp p).2.2.2.eng - (tp p).eng))
          (forceSum 2 exPartAtoms exPartId tp (fun p => (kp p).2.2.2)) ∧
        Computes exFile P s0 Q (3 / 2) [0, 1] ⟨true, true, true, false⟩ exAtoms exList (∑ p ∈ Finset.range 2, ((sk' p).t.eng - (tp p).eng))
          (forceSum 2 exPartAtoms exPartId tp (fun p => (sk' p).t)) := by
  let w0 : Work := ⟨[], [], [], [], [], [], [], []⟩
  let m0 : Kokkos.Pair.Mem := ⟨[], [], [], [], [], [], [], []⟩
  let y0 : Tally := ⟨0, [0, 0], List.replicate 15 0, List.replicate 6 0⟩
  have hy : TallyOk exAtoms exList y0 := ⟨⟨5, by decide, by simp [y0]⟩, by simp [y0], by simp [y0, exList]⟩
  have hg : ∀ p < 2, GhostTallyOk (exPartAtoms p) (exPartList p) y0 := by
    intro p hp
    refine ⟨⟨5, ?_, by simp [y0]⟩, by simp [y0], by simp [y0, exPartList]⟩
    interval_cases p <;> decide
  have ho : ∀ p < 2, centres (exPartList p) = List.range (exPartAtoms p).nlocal := by
    intro p hp
    interval_cases p <;> decide
  obtain ⟨P, s0, Q, h1, k1, h2⟩ := C69_no_mpi_division (sph := exSph) (dsph := exDsph) (junk := junk) exFile_ok exFile_okK hs exSph_ok
  obtain ⟨P', s0', Q', h1', k1', h3⟩ := C71_mpi_division_partial (sph := exSph) (dsph := exDsph) (junk := junk) exFile_ok exFile_okK hs exSph_ok
  rw [h1] at h1'
  rw [k1] at k1'
  cases h1'
  cases k1'
  obtain ⟨P', s0', h1', h4⟩ := C44_no_mpi exFile exSph exDsph exFile_ok hs exSph_ok
  rw [h1] at h1'
  cases h1'
  obtain ⟨P', s0', h1', h5⟩ := C43_mpi_partial exFile exSph exDsph exFile_ok hs exSph_ok
  rw [h1] at h1'
  cases h1'
  have hN : ∀ p < 2, Hist exFile P s0 s0 ∧ GhostTallyOk (exPartAtoms p) (exPartList p) y0 := fun p hp => ⟨.init, hg p hp⟩
  have hK : ∀ p < 2, HistG exFile Q (Kokkos.State.init ℝ) ∧ GhostTallyOk (exPartAtoms p) (exPartList p) y0 := fun p hp => ⟨.base .init, hg p hp⟩
  have hM : HistM exFile Q 2 (fun _ => ⟨m0, 0, Kokkos.State.init ℝ, some ⟨[0, 0, 0], []⟩, y0⟩) := .start (fun _ _ => ⟨.base .init, rfl⟩)
  obtain ⟨-, kp, -, a2, -⟩ := h2 _ _ _ _ _ _ _ _ exRun.1 exPart_ok ⟨true, true, true, false⟩ rfl s0 w0 y0 .init hy (fun _ => V)
    (fun _ => Kokkos.State.init ℝ) (fun _ => m0) (fun _ => []) (fun _ => y0) hK
  obtain ⟨-, sk', -, b2, -⟩ := h3 _ _ _ _ _ _ _ _ _ exRun.1 exMpi_ok ho ⟨true, true, true, false⟩ rfl s0 w0 y0 .init hy (fun _ => V) _ hM hg
  obtain ⟨-, rp, -, c2, -⟩ := h4 _ _ _ _ _ _ _ _ exRun.1 exPart_ok ⟨true, true, true, false⟩ rfl s0 w0 y0 .init hy
    (fun _ => s0) (fun _ => w0) (fun _ => y0) (fun _ => []) hN
  obtain ⟨-, st', -, d2, -⟩ := h5 _ _ _ _ _ _ _ _ _ exRun.1 exMpi_ok ho ⟨true, true, true, false⟩ rfl s0 w0 y0 .init hy
    (fun _ => ⟨w0, s0, [], y0⟩) hN
  exact ⟨P, s0, Q, h1, k1, rp, st', kp, sk', fun _ => y0, .noMpi exPart_ok hN c2, .mpi exMpi_ok ho hN d2, .kkNoMpi exPart_ok hK a2,
    .kkMpi exMpi_ok ho hM hg b2⟩

end Verif.Props
