import Verif.Model.Kokkos.PairDual
import Verif.Props.KokkosPair

/-! # Property theorems: LAMMPS' arrays on the device and on the host (C126) -/

namespace Verif.Props
open Verif.Lammps Verif.Kokkos.Pair

/-- What holds between calls: not both arrays modified, equal if none is, one array in one memory. -/
structure DualOk {α : Type} (shared : Bool) (d : Dual α) : Prop where
  one : shared = true → d.arr .device = d.arr .host
  both : ¬ (d.mod .device = true ∧ d.mod .host = true)
  same : d.mod .device = false → d.mod .host = false → d.arr .device = d.arr .host

/-- The contents that count: those written last. -/
def now {α : Type} (d : Dual α) : α := if d.mod .device then d.arr .device else d.arr .host

structure AtomsOkK (shared : Bool) (a : AtomsK) : Prop where
  x : DualOk shared a.x
  f : DualOk shared a.f
  type : DualOk shared a.type
  tag : DualOk shared a.tag
  mapArray : DualOk shared a.mapArray
  mapHash : DualOk shared a.mapHash

/-- The atoms as LAMMPS has them. -/
def atomsNow (a : AtomsK) : Atoms :=
  ⟨a.nlocal, a.nghost, now a.x, now a.type, now a.tag, if a.hash then now a.mapHash else now a.mapArray⟩

section
variable {α : Type} {shared : Bool} {d : Dual α}

theorem sync_arr (h : DualOk shared d) (s : Side) : (d.sync s).arr s = now d := by
  obtain ⟨-, h2, h3⟩ := h
  unfold Dual.sync now
  cases s <;> cases h4 : d.mod .device <;> cases h5 : d.mod .host <;> simp_all [Side.other]

theorem sync_ok (h : DualOk shared d) (s : Side) : DualOk shared (d.sync s) := by
  obtain ⟨h1, h2, h3⟩ := h
  unfold Dual.sync
  cases s <;> cases h4 : d.mod .device <;> cases h5 : d.mod .host <;> constructor <;> simp_all [Side.other]

theorem sync_now (h : DualOk shared d) (s : Side) : now (d.sync s) = now d := by
  obtain ⟨-, h2, h3⟩ := h
  unfold Dual.sync now
  cases s <;> cases h4 : d.mod .device <;> cases h5 : d.mod .host <;> simp_all [Side.other]

theorem sync_mod (h : DualOk shared d) (s : Side) : (d.sync s).mod s.other = false := by
  unfold Dual.sync
  split
  · rfl
  · rename_i hh
    simpa using hh

theorem write_modify (s : Side) (c : α) (hm : d.mod s.other = false) :
    DualOk shared ((d.write shared s c).modify s) ∧ now ((d.write shared s c).modify s) = c := by
  unfold Dual.write Dual.modify now
  cases shared <;> cases s <;> simp_all [Side.other] <;> constructor <;> simp_all
end

/-- What LAMMPS may rely on after a call that made the forces `F` out of the atoms `a`: consistent arrays, everything but the forces as before,
and the forces are `F`, also for code on the host that asks for them. -/
structure After (shared : Bool) (a b : AtomsK) (F : List ℝ) : Prop where
  ok : AtomsOkK shared b
  atoms : atomsNow b = atomsNow a
  forces : now b.f = F
  onHost : (b.f.sync .host).arr .host = F

theorem finish_after {shared : Bool} {a b : AtomsK} {s : Side} (hb : AtomsOkK shared b) (hn : atomsNow b = atomsNow a)
    (hm : b.f.mod s.other = false) (ev : Bool) (F : List ℝ) : After shared a (b.finish shared s ev F) F := by
  obtain ⟨k1, k2⟩ := write_modify (shared := shared) s F hm
  have e : b.finish shared s ev F = { b with f := (b.f.write shared s F).modify s } := by
    unfold AtomsK.finish AtomsK.modified modMask
    cases ev <;> rfl
  rw [e]
  exact ⟨⟨hb.x, k1, hb.type, hb.tag, hb.mapArray, hb.mapHash⟩, hn, k2, (sync_arr k1 .host).trans k2⟩

/-- C126 without domain decomposition: the kernels work on the contents LAMMPS wrote last, wherever it wrote them, and LAMMPS gets their forces.
Needed: with `MAP_HASH`, LAMMPS has copied the hash itself (the code copies only the array). -/
theorem C126_single_partial {shared : Bool} {s : Side} {a : AtomsK} (ha : AtomsOkK shared a) (hr : shared = true ∨ s = .device)
    (hh : a.hash = true → a.mapHash.arr s = now a.mapHash) (ev : Bool) (V : PEnv) (zbl : Option ZBLModel.ZBL) (P : Kokkos.Params ℝ) (rc : ℝ)
    (mt : List ℕ) (fl : Flags) (L : NList) (w : Kokkos.Pair.Mem) (st : Kokkos.State ℝ) (t : Tally) :
    ∃ b : List ℝ → AtomsK, (∀ F, After shared a (b F) F) ∧
      singleDual shared s ev V zbl P rc mt fl a L w st t =
        (computeSingle V zbl P rc mt fl (atomsNow a) L w st { t with f := now a.f }).map (fun r => (r, b r.2.2.f)) := by
  let c : AtomsK := { a.sync s ⟨true, true, true, true⟩ with mapArray := a.mapArray.sync s }
  have hc : AtomsOkK shared c := ⟨sync_ok ha.x s, sync_ok ha.f s, sync_ok ha.type s, sync_ok ha.tag s, sync_ok ha.mapArray s, ha.mapHash⟩
  have hn : atomsNow c = atomsNow a := by
    simp only [atomsNow, c, AtomsK.sync, if_true, sync_now ha.x, sync_now ha.type, sync_now ha.tag, sync_now ha.mapArray]
  have hv : c.view s = atomsNow a := by
    simp only [atomsNow, AtomsK.view, c, AtomsK.sync, if_true, sync_arr ha.x, sync_arr ha.type, sync_arr ha.tag, sync_arr ha.mapArray]
    cases hb : a.hash with
    | true => simp [hh hb]
    | false => simp
  refine ⟨fun F => c.finish shared s ev F, fun F => finish_after hc hn (sync_mod ha.f s) ev F, ?_⟩
  have hf : c.f.arr s = now a.f := sync_arr ha.f s
  have hre : reach shared s = true := by simpa [reach] using hr
  unfold singleDual
  simp only [hre, if_true]
  change (computeSingle V zbl P rc mt fl (c.view s) L w st { t with f := c.f.arr s }).bind (fun r => some (r, c.finish shared s ev r.2.2.f)) = _
  rw [hv, hf]
  cases computeSingle V zbl P rc mt fl (atomsNow a) L w st { t with f := now a.f } <;> rfl

section
variable (a1 a2 : ℕ) (a3 : List ℝ) (a4 a5 b5 : List ℕ) (a6 b6 : ℕ → Option ℕ)

theorem edgeLoop_tag (E : EdgeV → List ℕ) (L : NList) (rc2 : ℝ) (mt : List ℕ) (look : ℕ → Option ℕ) (i : ℕ) (xi : ℝ × ℝ × ℝ) (m jj ij : ℕ) :
    edgeLoop E ⟨a1, a2, a3, a4, a5, a6⟩ L rc2 mt look i xi m jj ij = edgeLoop E ⟨a1, a2, a3, a4, b5, b6⟩ L rc2 mt look i xi m jj ij := by
  induction m generalizing jj ij with
  | zero => rfl
  | succ m ih =>
    simp only [edgeLoop, ih]
    rfl

theorem edgesK_tag : edgesK ⟨a1, a2, a3, a4, a5, a6⟩ = edgesK ⟨a1, a2, a3, a4, b5, b6⟩ := by
  funext L rc2 mt n node fn look E
  unfold edgesK
  simp only [edgeLoop_tag a1 a2 a3 a4 a5 b5 a6 b6]
  rfl

theorem edgeViews_tag (V : PEnv) : edgeViews V ⟨a1, a2, a3, a4, a5, a6⟩ = edgeViews V ⟨a1, a2, a3, a4, b5, b6⟩ := by
  funext L rc2 mt n e node look w
  unfold edgeViews
  rw [edgesK_tag a1 a2 a3 a4 a5 b5 a6 b6]

theorem nodesK_tag : nodesK ⟨a1, a2, a3, a4, a5, a6⟩ = nodesK ⟨a1, a2, a3, a4, b5, b6⟩ := rfl

theorem nodeLaunch_tag (V : PEnv) : nodeLaunch V ⟨a1, a2, a3, a4, a5, a6⟩ = nodeLaunch V ⟨a1, a2, a3, a4, b5, b6⟩ := by
  funext L rc2 mt n node w
  unfold nodeLaunch
  rw [nodesK_tag a1 a2 a3 a4 a5 b5 a6 b6]

theorem graphViews_tag (V : PEnv) : graphViews V ⟨a1, a2, a3, a4, a5, a6⟩ = graphViews V ⟨a1, a2, a3, a4, b5, b6⟩ := by
  funext L rc2 mt n node look w
  unfold graphViews nodeViews
  rw [edgeViews_tag a1 a2 a3 a4 a5 b5 a6 b6, nodeLaunch_tag a1 a2 a3 a4 a5 b5 a6 b6]

theorem markGhostK_tag : markGhostK ⟨a1, a2, a3, a4, a5, a6⟩ = markGhostK ⟨a1, a2, a3, a4, b5, b6⟩ := rfl

theorem ghostsK_tag (V : PEnv) : ghostsK V ⟨a1, a2, a3, a4, a5, a6⟩ = ghostsK V ⟨a1, a2, a3, a4, b5, b6⟩ := by
  funext L rc2
  unfold ghostsK
  rw [markGhostK_tag a1 a2 a3 a4 a5 b5 a6 b6]

theorem buildNoMpiK_tag (V : PEnv) : buildNoMpiK V ⟨a1, a2, a3, a4, a5, a6⟩ = buildNoMpiK V ⟨a1, a2, a3, a4, b5, b6⟩ := by
  funext L rc2 mt w nii
  unfold buildNoMpiK
  rw [edgeViews_tag a1 a2 a3 a4 a5 b5 a6 b6, nodeLaunch_tag a1 a2 a3 a4 a5 b5 a6 b6, ghostsK_tag a1 a2 a3 a4 a5 b5 a6 b6]

end

/-- Tags and map are not used with ghost nodes. -/
theorem noMpi_tag (V : PEnv) (zbl : Option ZBLModel.ZBL) (P : Kokkos.Params ℝ) (rc : ℝ) (mt : List ℕ) (fl : Flags) (A B : Atoms) (L : NList)
    (w : Kokkos.Pair.Mem) (nii : List ℕ) (st : Kokkos.State ℝ) (t : Tally) (h1 : A.nlocal = B.nlocal) (h2 : A.nghost = B.nghost) (h3 : A.x = B.x)
    (h4 : A.type = B.type) : computeNoMpiK V zbl P rc mt fl A L w nii st t = computeNoMpiK V zbl P rc mt fl B L w nii st t := by
  obtain ⟨a1, a2, a3, a4, a5, a6⟩ := A
  obtain ⟨b1, b2, b3, b4, b5, b6⟩ := B
  dsimp only at h1 h2 h3 h4
  subst h1 h2 h3 h4
  unfold computeNoMpiK
  rw [buildNoMpiK_tag a1 a2 a3 a4 a5 b5 a6 b6]

theorem mpi_tag (V : ℕ → PEnv) (zbl : Option ZBLModel.ZBL) (P : Kokkos.Params ℝ) (rc : ℝ) (mt : List ℕ) (fl : Flags) (np : ℕ) (A B : ℕ → Atoms)
    (L : ℕ → NList) (ms : List Msg) (st : ℕ → ProcK) (h2 : ∀ p, (A p).nlocal = (B p).nlocal ∧ (A p).nghost = (B p).nghost)
    (h3 : ∀ p, (A p).x = (B p).x) (h4 : ∀ p, (A p).type = (B p).type) :
    computeMpiK V zbl P rc mt fl np A L ms st = computeMpiK V zbl P rc mt fl np B L ms st := by
  have e : (fun p => mpiK1 (V p) zbl P rc mt (A p) (L p)) = fun p => mpiK1 (V p) zbl P rc mt (B p) (L p) := by
    funext p q
    have k1 := (h2 p).1; have k2 := (h2 p).2; have k3 := h3 p; have k4 := h4 p
    revert k1 k2 k3 k4
    generalize A p = A'
    generalize B p = B'
    obtain ⟨a1, a2, a3, a4, a5, a6⟩ := A'
    obtain ⟨b1, b2, b3, b4, b5, b6⟩ := B'
    dsimp only
    intro k1 k2 k3 k4
    subst k1 k2 k3 k4
    unfold mpiK1
    rw [graphViews_tag a1 a2 a3 a4 a5 b5 a6 b6]
  unfold computeMpiK
  rw [e]

theorem sync3 {shared : Bool} {a : AtomsK} (ha : AtomsOkK shared a) (s : Side) :
    AtomsOkK shared (a.sync s ⟨true, true, true, false⟩) ∧ atomsNow (a.sync s ⟨true, true, true, false⟩) = atomsNow a ∧
      ((a.sync s ⟨true, true, true, false⟩).view s).x = now a.x ∧ ((a.sync s ⟨true, true, true, false⟩).view s).type = now a.type ∧
      (a.sync s ⟨true, true, true, false⟩).f.arr s = now a.f ∧ (a.sync s ⟨true, true, true, false⟩).f.mod s.other = false := by
  refine ⟨⟨sync_ok ha.x s, sync_ok ha.f s, sync_ok ha.type s, ha.tag, ha.mapArray, ha.mapHash⟩, ?_, sync_arr ha.x s, sync_arr ha.type s,
    sync_arr ha.f s, sync_mod ha.f s⟩
  simp only [atomsNow, AtomsK.sync, if_true, sync_now ha.x, sync_now ha.type]
  rfl

/-- C126 with ghost nodes: as `C126_single_partial`; tags and map are not used, so nothing is needed of them. -/
theorem C126_noMpi_partial {shared : Bool} {s : Side} {a : AtomsK} (ha : AtomsOkK shared a) (hr : shared = true ∨ s = .device) (ev : Bool) (V : PEnv)
    (zbl : Option ZBLModel.ZBL) (P : Kokkos.Params ℝ) (rc : ℝ) (mt : List ℕ) (fl : Flags) (L : NList) (w : Kokkos.Pair.Mem) (nii : List ℕ)
    (st : Kokkos.State ℝ) (t : Tally) :
    ∃ b : List ℝ → AtomsK, (∀ F, After shared a (b F) F) ∧
      noMpiDual shared s ev V zbl P rc mt fl a L w nii st t =
        (computeNoMpiK V zbl P rc mt fl (atomsNow a) L w nii st { t with f := now a.f }).map (fun r => (r, b r.2.2.2.f)) := by
  obtain ⟨hc, hn, hx, hty, hf, hm⟩ := sync3 ha s
  refine ⟨fun F => (a.sync s ⟨true, true, true, false⟩).finish shared s ev F, fun F => finish_after hc hn hm ev F, ?_⟩
  have hre : reach shared s = true := by simpa [reach] using hr
  unfold noMpiDual
  simp only [hre, if_true]
  rw [noMpi_tag V zbl P rc mt fl ((a.sync s ⟨true, true, true, false⟩).view s) (atomsNow a) L w nii st _ rfl rfl hx hty, hf]
  cases computeNoMpiK V zbl P rc mt fl (atomsNow a) L w nii st { t with f := now a.f } <;> rfl

/-- C126 with message passing: on every process, as `C126_noMpi_partial`. -/
theorem C126_mpi_partial {shared : Bool} {s : Side} {a : ℕ → AtomsK} (ha : ∀ p, AtomsOkK shared (a p)) (hr : shared = true ∨ s = .device) (ev : Bool)
    (V : ℕ → PEnv) (zbl : Option ZBLModel.ZBL) (P : Kokkos.Params ℝ) (rc : ℝ) (mt : List ℕ) (fl : Flags) (np : ℕ) (L : ℕ → NList) (ms : List Msg)
    (st : ℕ → ProcK) :
    ∃ b : ℕ → List ℝ → AtomsK, (∀ p F, After shared (a p) (b p F) F) ∧
      mpiDual shared s ev V zbl P rc mt fl np a L ms st =
        (computeMpiK V zbl P rc mt fl np (fun p => atomsNow (a p)) L ms (fun p => { st p with t := { (st p).t with f := now (a p).f } })).map
          (fun r => (r, fun p => b p (r p).t.f)) := by
  refine ⟨fun p F => ((a p).sync s ⟨true, true, true, false⟩).finish shared s ev F,
    fun p F => finish_after (sync3 (ha p) s).1 (sync3 (ha p) s).2.1 (sync3 (ha p) s).2.2.2.2.2 ev F, ?_⟩
  have hre : reach shared s = true := by simpa [reach] using hr
  have hf : (fun p => ({ st p with t := { (st p).t with f := ((a p).sync s ⟨true, true, true, false⟩).f.arr s } } : ProcK)) =
      fun p => { st p with t := { (st p).t with f := now (a p).f } } := by
    funext p
    rw [(sync3 (ha p) s).2.2.2.2.1]
  unfold mpiDual
  simp only [hre, if_true]
  rw [mpi_tag V zbl P rc mt fl np (fun p => ((a p).sync s ⟨true, true, true, false⟩).view s) (fun p => atomsNow (a p)) L ms _ (fun _ => ⟨rfl, rfl⟩) (fun p => (sync3 (ha p) s).2.2.1)
    (fun p => (sync3 (ha p) s).2.2.2.1), hf]
  cases computeMpiK V zbl P rc mt fl np (fun p => atomsNow (a p)) L ms (fun p => { st p with t := { (st p).t with f := now (a p).f } }) <;> rfl

open Verif.MACE Verif.Spec in
/-- C126 and C64: wherever LAMMPS wrote positions, types, tags and forces last, it finds on the host the forces the CPU pair style computes from them,
and energy and virial agree. -/
theorem C126_equals_cpu_partial {f : File} {ne : ℕ} {sph : ℝ → ℝ → ℝ → ℕ → ℝ} {dsph : ℝ → ℝ → ℝ → ℕ → ℕ → ℝ}
    {srt : List (List (List ℕ)) → List (List (List ℕ))} {junk : ℕ → ℕ → ℝ} (hf : FileOk f) (hk : FileOkK f ne) (hs : Poly.SortFn srt) :
    ∃ P s0 Q, MACE.load srt sph dsph f = some (P, s0) ∧ Kokkos.load srt sph dsph junk ne f = some (Q, Kokkos.State.init ℝ) ∧
      ∀ rc mt L shared a, AtomsOkK shared a → RunOk f rc mt L (atomsNow a) → centres L = List.range L.inum →
        (a.hash = true → a.mapHash.arr .device = now a.mapHash) → ∀ s, Hist f P s0 s → ∀ q, HistK f Q q →
        ∀ (V : Kokkos.Pair.PEnv) w wk fl ev t, fl.vAtom = false → TallyOk (atomsNow a) L { t with f := now a.f } →
        ∃ r k b, Lammps.computeSingle f.zbl P rc mt fl (atomsNow a) L w s { t with f := now a.f } = some r ∧
          singleDual shared .device ev V f.zbl Q rc mt fl a L wk q t = some (k, b) ∧ k.2.2.eng = r.2.2.eng ∧ k.2.2.virial = r.2.2.virial ∧
          After shared a b r.2.2.f := by
  obtain ⟨P, s0, Q, h1, h2, h3⟩ := C64_pair_equals_cpu (sph := sph) (dsph := dsph) (junk := junk) hf hk hs
  refine ⟨P, s0, Q, h1, h2, fun rc mt L shared a ha hR ho hh s hH q hq V w wk fl ev t hv ht => ?_⟩
  obtain ⟨r, k, e1, e2, -, e3, e4, e5, -⟩ := h3 rc mt L (atomsNow a) hR ho s hH q hq V w wk fl { t with f := now a.f } hv ht
  obtain ⟨b, b1, b2⟩ := C126_single_partial ha (Or.inr rfl) hh ev V f.zbl Q rc mt fl L wk q t
  refine ⟨r, k, b k.2.2.f, e1, ?_, e3, e5, e4 ▸ b1 _⟩
  rw [b2, e2]
  rfl

/-- C126 is violated by `symmetrix/mace/kk/host` wherever it is a class of its own: the kernels run on the device, the arrays are those of the host,
and no call works, in any mode. -/
theorem C126_violated (ev : Bool) (zbl : Option ZBLModel.ZBL) (P : Kokkos.Params ℝ) (rc : ℝ) (mt : List ℕ) (fl : Flags) :
    (∀ V a L w st t, singleDual false .host ev V zbl P rc mt fl a L w st t = none) ∧
    (∀ V a L w nii st t, noMpiDual false .host ev V zbl P rc mt fl a L w nii st t = none) ∧
    ∀ V np a L ms st, mpiDual false .host ev V zbl P rc mt fl np a L ms st = none :=
  ⟨fun _ _ _ _ _ _ => rfl, fun _ _ _ _ _ _ _ => rfl, fun _ _ _ _ _ _ => rfl⟩

/-- One atom, moved on the host, forces zeroed on the device, two memories. -/
noncomputable def exDual : AtomsK where
  nlocal := 1
  nghost := 0
  x := ⟨fun s => if s = .host then [1, 2, 3] else [0, 0, 0], fun s => s = .host⟩
  f := ⟨fun s => if s = .host then [7, 7, 7] else [0, 0, 0], fun s => s = .device⟩
  type := ⟨fun _ => [1], fun _ => false⟩
  tag := ⟨fun _ => [1], fun _ => false⟩
  hash := false
  mapArray := ⟨fun _ _ => some 0, fun _ => false⟩
  mapHash := ⟨fun _ _ => none, fun _ => false⟩

/-- The hypotheses hold for it; what counts is the host's position and the device's force. -/
example : AtomsOkK false exDual ∧ (atomsNow exDual).x = [1, 2, 3] ∧ now exDual.f = [0, 0, 0] := by
  refine ⟨⟨?_, ?_, ?_, ?_, ?_, ?_⟩, ?_, ?_⟩
  all_goals first | (constructor <;> simp [exDual]) | simp [exDual, atomsNow, now]

end Verif.Props
