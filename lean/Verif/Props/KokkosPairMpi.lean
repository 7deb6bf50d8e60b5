import Verif.Lemmas.Kokkos.PairMpi
import Verif.Props.KokkosPairNoMpi
import Verif.Props.LammpsMpi

/-! # Properties of the LAMMPS pair style `symmetrix/mace/kk`: `mpi_message_passing` mode (C70, C71, C72) -/

namespace Verif.Props
open Verif.MACE Verif.Spec Verif.Lammps Verif.Par Verif.Par.Prog

/-- States of `np` processes: at the start the pair style's `H1` is an empty view of its own; LAMMPS sets the accumulators between calls;
calls for divisions of any systems, with lists in natural order. -/
inductive HistM (f : File) (Q : Kokkos.Params ℝ) (np : ℕ) : (ℕ → Kokkos.Pair.ProcK) → Prop
  | start {st : ℕ → Kokkos.Pair.ProcK} : (∀ p < np, HistG f Q (st p).s ∧ (st p).own = some ⟨[0, 0, 0], []⟩) → HistM f Q np st
  | acc {st : ℕ → Kokkos.Pair.ProcK} (t : ℕ → Tally) : HistM f Q np st → HistM f Q np (fun p => { st p with t := t p })
  | call {V : ℕ → Kokkos.Pair.PEnv} {rc : ℝ} {mt : List ℕ} {fl : Flags} {A : ℕ → Atoms} {L : ℕ → NList} {κ : ℕ → ℕ → ℕ} {ms : List Msg}
      {A0 : Atoms} {L0 : NList} {st st' : ℕ → Kokkos.Pair.ProcK} : HistM f Q np st → RunOk f rc mt L0 A0 →
      MpiParts f rc mt np A L κ ms A0 L0 → (∀ p < np, centres (L p) = List.range (A p).nlocal) →
      (∀ p < np, GhostTallyOk (A p) (L p) (st p).t) → fl.vAtom = false →
      Kokkos.Pair.computeMpiK V f.zbl Q rc mt fl np A L ms st = some st' → HistM f Q np st'

variable {f : File} {ne : ℕ} {sph : ℝ → ℝ → ℝ → ℕ → ℝ} {dsph : ℝ → ℝ → ℝ → ℕ → ℕ → ℝ}
  {srt : List (List (List ℕ)) → List (List (List ℕ))} {junk : ℕ → ℕ → ℝ}

section
variable {rc : ℝ} {mt : List ℕ} {np : ℕ} {As : ℕ → Atoms} {Ls : ℕ → NList} {κ : ℕ → ℕ → ℕ} {A0 : Atoms} {L0 : NList} {ms : List Msg}

theorem MpiParts.inum (h : MpiParts f rc mt np As Ls κ ms A0 L0) {p : ℕ} (hp : p < np)
    (hid : centres (Ls p) = List.range (As p).nlocal) : centres (Ls p) = List.range (Ls p).inum := by
  have := centres_length (h.proc p hp).list
  rw [hid, List.length_range] at this
  rw [hid, this]

/-- The results of the two pair styles in this mode. -/
theorem mpiK_result (hf : FileOk f) {P : Params ℝ} (hP : Loaded f sph dsph P) {Q : Kokkos.Params ℝ} (hQ : Kokkos.LoadedK f sph dsph Q)
    (h0 : RunOk f rc mt L0 A0) (h : MpiParts f rc mt np As Ls κ ms A0 L0) {fl : Flags} (hv : fl.vAtom = false) {st : ℕ → Proc}
    (hs : ∀ p < np, StOk f (st p).s ∧ GhostTallyOk (As p) (Ls p) (st p).t) (V : ℕ → Kokkos.Pair.PEnv) {sk : ℕ → Kokkos.Pair.ProcK}
    (hk : ∀ p < np, Kokkos.StOkK f Q (sk p).s ∧ Kokkos.Pair.OwnOk (sk p).own Q.LM Q.C)
    (hor : ∀ p < np, centres (Ls p) = List.range (Ls p).inum ∨ (sk p).own ≠ none) (ht : ∀ p < np, (sk p).t = (st p).t) :
    ∃ st' sk', computeMpi f.zbl P rc mt fl np As Ls ms st = some st' ∧
      Kokkos.Pair.computeMpiK V f.zbl Q rc mt fl np As Ls ms sk = some sk' ∧
      ∀ p < np, Kokkos.StOkK f Q (sk' p).s ∧ (sk' p).own = none ∧ (sk' p).t.eng = (st' p).t.eng ∧ (sk' p).t.f = (st' p).t.f ∧
        (sk' p).t.virial = (st' p).t.virial ∧
        (fl.eAtom → (sk' p).t.eatom.length = (st p).t.eatom.length ∧ ∀ i < (st p).t.eatom.length,
          nth (sk' p).t.eatom i = if i < (Ls p).inum then nth (st p).t.eatom i + nth (st' p).t.eatom i else nth (st p).t.eatom i) ∧
        (fl.eAtom = false → (sk' p).t.eatom = (st p).t.eatom) := by
  have hM : ∀ p, ∃ M, p < np → natoms (As p) ≤ M ∧ (st p).t.f = tab2 M 3 (fun a c => nth (st p).t.f (3 * a + c)) := by
    intro p
    by_cases hp : p < np
    · obtain ⟨M, h1, h2, _⟩ := ghost_tally_tab (hs p hp).2
      exact ⟨M, fun _ => ⟨h1, h2⟩⟩
    · exact ⟨0, fun h => absurd h hp⟩
  choose M hM using hM
  obtain ⟨st', h1, -, h3⟩ := computeMpi_spec hf hP h.parts h0.inside h.proc h.locals h.plan h.filled (fun p hp => (hs p hp).1) hv hM
    (fun p hp => (hs p hp).2.virial) (fun p hp => (hs p hp).2.eatom)
  obtain ⟨sk', k1, k2⟩ := Kokkos.Pair.computeMpiK_spec V hf hQ h.parts h0.inside h.proc h.locals h.plan h.filled hk hor hv
    (M := M) (fun p hp => by rw [ht p hp]; exact hM p hp) (fun p hp => by rw [ht p hp]; exact (hs p hp).2.virial)
    (fun p hp => by rw [ht p hp]; exact (hs p hp).2.eatom)
  refine ⟨st', sk', h1, k1, fun p hp => ?_⟩
  obtain ⟨x1, x2, x3⟩ := k2 p hp
  have y := (h3 p hp).2
  rw [x3, y, ht p hp]
  refine ⟨x1, x2, rfl, rfl, rfl, fun he => ?_, fun he => ?_⟩
  · unfold mpiOut
    simp only [he, if_true]
    refine ⟨by simp, fun i hi => ?_⟩
    rw [nth_tab hi]
    split_ifs with hin
    · rw [nth_tab hi, if_pos hin]
    · rfl
  · simp [he]

end

theorem HistM.ok (hf : FileOk f) {P : Params ℝ} {s0 : State ℝ} (hP : Loaded f sph dsph P) (h0 : StOk f s0) {Q : Kokkos.Params ℝ}
    (hQ : Kokkos.LoadedK f sph dsph Q) {np : ℕ} {st : ℕ → Kokkos.Pair.ProcK} (h : HistM f Q np st) :
    ∀ p < np, Kokkos.StOkK f Q (st p).s ∧ Kokkos.Pair.OwnOk (st p).own Q.LM Q.C := by
  induction h with
  | start h =>
    intro p hp
    refine ⟨(h p hp).1.ok hf hQ, fun v hv => ?_⟩
    rw [(h p hp).2] at hv
    obtain rfl := Option.some.inj hv
    exact ⟨rfl, 0, [0, 0], rfl, le_rfl, Or.inl rfl⟩
  | acc t _ ih => exact ih
  | @call V rc mt fl A L κ ms A0 L0 st st' _ hR hp hid ht hv e ih =>
    obtain ⟨_, sk', -, h2, h3⟩ := mpiK_result hf hP hQ hR hp hv (st := fun p => ⟨⟨[], [], [], [], [], [], [], []⟩, s0, [], (st p).t⟩)
      (fun p hp' => ⟨h0, ht p hp'⟩) V ih (fun p hp' => Or.inl (hp.inum hp' (hid p hp'))) (fun p _ => rfl)
    rw [h2] at e
    cases e
    intro p hp'
    refine ⟨(h3 p hp').1, fun v hv => ?_⟩
    rw [(h3 p hp').2.1] at hv
    cases hv

/-- C70: for lists in natural order the two pair styles compute the same in this mode: on every process the energy, forces and virial
added are equal, for every division, communication plan, environment of every process and history of both.  Per-atom energies: as in C64. -/
theorem C70_mpi_equals_cpu (hf : FileOk f) (hk : FileOkK f ne) (hs : Poly.SortFn srt) :
    ∃ P s0 Q, MACE.load srt sph dsph f = some (P, s0) ∧ Kokkos.load srt sph dsph junk ne f = some (Q, Kokkos.State.init ℝ) ∧
      ∀ rc mt np A L κ ms A0 L0, RunOk f rc mt L0 A0 → MpiParts f rc mt np A L κ ms A0 L0 →
        (∀ p < np, centres (L p) = List.range (A p).nlocal) → ∀ fl, fl.vAtom = false →
        ∀ st : ℕ → Proc, (∀ p < np, Hist f P s0 (st p).s ∧ GhostTallyOk (A p) (L p) (st p).t) →
        ∀ (V : ℕ → Kokkos.Pair.PEnv) (sk : ℕ → Kokkos.Pair.ProcK), HistM f Q np sk → (∀ p < np, (sk p).t = (st p).t) →
        ∃ st' sk', computeMpi f.zbl P rc mt fl np A L ms st = some st' ∧
          Kokkos.Pair.computeMpiK V f.zbl Q rc mt fl np A L ms sk = some sk' ∧ HistM f Q np sk' ∧
          ∀ p < np, (sk' p).t.eng = (st' p).t.eng ∧ (sk' p).t.f = (st' p).t.f ∧ (sk' p).t.virial = (st' p).t.virial ∧
            (fl.eAtom → (sk' p).t.eatom.length = (st p).t.eatom.length ∧ ∀ i < (st p).t.eatom.length,
              nth (sk' p).t.eatom i = if i < (L p).inum then nth (st p).t.eatom i + nth (st' p).t.eatom i else nth (st p).t.eatom i) ∧
            (fl.eAtom = false → (sk' p).t.eatom = (st p).t.eatom) := by
  obtain ⟨P, s0, h1, h2, h3⟩ := MACE.load_spec hf hs sph dsph
  obtain ⟨Q, k1, k2⟩ := Kokkos.load_spec hf hk hs sph dsph junk
  refine ⟨P, s0, Q, h1, k1, fun rc mt np A L κ ms A0 L0 hR h hid fl hv st hst V sk hsk ht => ?_⟩
  obtain ⟨st', sk', e1, e2, e3⟩ := mpiK_result hf h2 k2 hR h hv (fun p hp => ⟨(hst p hp).1.ok hf h2 h3, (hst p hp).2⟩) V
    (hsk.ok hf h2 h3 k2) (fun p hp => Or.inl (h.inum hp (hid p hp))) ht
  exact ⟨st', sk', e1, e2, .call hsk hR h hid (fun p hp => by rw [ht p hp]; exact (hst p hp).2) hv e2, fun p hp => (e3 p hp).2.2⟩

/-- C71: any division of a system among any number of processes running the Kokkos style, any valid communication plan, whatever was
computed before: energies, forces (collected from all images) and virials add up to those the CPU style computes for the whole system in
one process, and the energy added for every single atom is the same.  Missing: neighbour lists which do not list the local atoms in the
order `0, 1, …`, see `C71_violated`. -/
theorem C71_mpi_division_partial (hf : FileOk f) (hk : FileOkK f ne) (hsrt : Poly.SortFn srt)
    (hsph : IsSphGrad sph dsph ((f.lmax + 1) * (f.lmax + 1))) :
    ∃ P s0 Q, MACE.load srt sph dsph f = some (P, s0) ∧ Kokkos.load srt sph dsph junk ne f = some (Q, Kokkos.State.init ℝ) ∧
      ∀ rc mt np A L κ ms A0 L0, RunOk f rc mt L0 A0 → MpiParts f rc mt np A L κ ms A0 L0 →
      (∀ p < np, centres (L p) = List.range (A p).nlocal) → ∀ fl, fl.vAtom = false →
      ∀ s w t, Hist f P s0 s → TallyOk A0 L0 t →
      ∀ (V : ℕ → Kokkos.Pair.PEnv) (sk : ℕ → Kokkos.Pair.ProcK), HistM f Q np sk → (∀ p < np, GhostTallyOk (A p) (L p) (sk p).t) →
      ∃ (r : Work × State ℝ × Tally) (sk' : ℕ → Kokkos.Pair.ProcK), computeSingle f.zbl P rc mt fl A0 L0 w s t = some r ∧
        Kokkos.Pair.computeMpiK V f.zbl Q rc mt fl np A L ms sk = some sk' ∧
        ∑ p ∈ Finset.range np, ((sk' p).t.eng - (sk p).t.eng) = r.2.2.eng - t.eng ∧
        (fl.eAtom → ∀ p < np, ∀ i < (A p).nlocal, nth (sk' p).t.eatom i - nth (sk p).t.eatom i
          = nth r.2.2.eatom (rank (centres L0) (κ p i))) ∧
        (ScalesNonzero f sph (periodic A0 L0 rc mt) (bondVecs A0 L0 rc) →
          (∀ b < A0.nlocal, ∀ c < 3,
            forceSum np A κ (fun p => (sk p).t) (fun p => (sk' p).t) b c = nth r.2.2.f (3 * b + c) - nth t.f (3 * b + c)) ∧
          (fl.vGlobal → ∀ k < 6,
            ∑ p ∈ Finset.range np, (nth (sk' p).t.virial k - nth (sk p).t.virial k) = nth r.2.2.virial k - nth t.virial k)) := by
  obtain ⟨P, s0, Q, h1, k1, hc⟩ := C70_mpi_equals_cpu (sph := sph) (dsph := dsph) (junk := junk) hf hk hsrt
  obtain ⟨P', s0', h1', hd⟩ := C43_mpi_partial f sph dsph hf hsrt hsph
  rw [h1] at h1'
  cases h1'
  refine ⟨P, s0, Q, h1, k1, fun rc mt np A L κ ms A0 L0 h0 h hid fl hv s w t hs ht V sk hsk hgt => ?_⟩
  set st : ℕ → Proc := fun p => ⟨w, s, [], (sk p).t⟩ with hst
  have hst' : ∀ p < np, Hist f P s0 (st p).s ∧ GhostTallyOk (A p) (L p) (st p).t := fun p hp => ⟨hs, hgt p hp⟩
  obtain ⟨r, st', r1, r2, r3, r4, r5⟩ := hd rc mt np A L κ ms A0 L0 h0 h hid fl hv s w t hs ht st hst'
  obtain ⟨st'', sk', q1, q2, -, q3⟩ := hc rc mt np A L κ ms A0 L0 h0 h hid fl hv st hst' V sk hsk (fun p _ => rfl)
  rw [r2] at q1
  obtain rfl := Option.some.inj q1
  refine ⟨r, sk', r1, q2, ?_, fun he p hp ii hii => ?_, fun hsc => ⟨fun b hb c hc' => ?_, fun hg k hk' => ?_⟩⟩
  · rw [← r3]
    refine Finset.sum_congr rfl (fun p hp => ?_)
    rw [(q3 p (Finset.mem_range.mp hp)).1]
  · obtain ⟨-, -, -, x, -⟩ := q3 p hp
    have hn : ii < (L p).inum := by rw [← centres_length (h.proc p hp).list, hid p hp, List.length_range]; exact hii
    have hl : ii < (st p).t.eatom.length := lt_of_lt_of_le hn (hgt p hp).eatom
    rw [(x he).2 ii hl, if_pos hn, add_sub_cancel_left]
    have := r4 he p hp ii hii
    unfold nth
    rw [this]
  · rw [← (r5 hsc).1 b hb c hc']
    unfold forceSum
    refine Finset.sum_congr rfl (fun p hp => Finset.sum_congr rfl (fun j _ => ?_))
    dsimp only
    rw [(q3 p (Finset.mem_range.mp hp)).2.1]
  · rw [← (r5 hsc).2 hg k hk']
    refine Finset.sum_congr rfl (fun p hp => ?_)
    rw [(q3 p (Finset.mem_range.mp hp)).2.2.1]

/-- The hypotheses hold for the two processes of `exMpi_ok`, at the first call. -/
example : FileOk exFile ∧ FileOkK exFile 2 ∧ MpiParts exFile (3 / 2) [0, 1] 2 exPartAtoms exPartList exPartId exPlan exAtoms exList ∧
    ∀ Q, HistM exFile Q 2 (fun _ => ⟨⟨[], [], [], [], [], [], [], []⟩, 0, Kokkos.State.init ℝ, some ⟨[0, 0, 0], []⟩, ⟨0, [], [], []⟩⟩) :=
  ⟨exFile_ok, exFile_okK, exMpi_ok, fun _ => .start (fun _ _ => ⟨.base .init, rfl⟩)⟩

theorem flipFile_okK : FileOkK flipFile 2 where
  elements := by decide
  mono0 := by intro _ _ m hm; rw [List.mem_singleton.mp hm]; decide
  mono1 := by decide
  A0s := by intro h; exact absurd h (by decide)
  A1s := by intro h; exact absurd h (by decide)

/-- C71 fails for neighbour lists in another order already at the first call: the system of `C43_violated`. -/
theorem C71_violated : ∃ f rc mt A L κ ms A0 L0, FileOk f ∧ FileOkK f 2 ∧ RunOk f rc mt L0 A0 ∧ MpiParts f rc mt 1 A L κ ms A0 L0 ∧
    ∀ srt, Poly.SortFn srt → ∀ sph dsph junk, (∀ x y z, sph x y z 0 = 1 / (2 * Real.sqrt Real.pi)) →
      ∃ P s0 Q, MACE.load srt sph dsph f = some (P, s0) ∧ Kokkos.load srt sph dsph junk 2 f = some (Q, Kokkos.State.init ℝ) ∧
        ∀ s w t, Hist f P s0 s → TallyOk A0 L0 t →
        ∀ (V : ℕ → Kokkos.Pair.PEnv) (sk : ℕ → Kokkos.Pair.ProcK), HistG f Q (sk 0).s → (sk 0).own = some ⟨[0, 0, 0], []⟩ →
          GhostTallyOk (A 0) (L 0) (sk 0).t →
          ∃ r sk', computeSingle f.zbl P rc mt ⟨true, true, true, false⟩ A0 L0 w s t = some r ∧
            Kokkos.Pair.computeMpiK V f.zbl Q rc mt ⟨true, true, true, false⟩ 1 A L ms sk = some sk' ∧
            0 < r.2.2.eng - t.eng ∧ (sk' 0).t.eng - (sk 0).t.eng = 0 := by
  have hf := flipFile_ok
  have hk := flipFile_okK
  have hR := flip_run
  have hp := flip_parts
  refine ⟨flipFile, 3 / 2, [0, 1], fun _ => flipAtoms, fun _ => flipList, fun _ j => j, [], flipAtoms, flipList, hf, hk, hR, hp,
    fun srt hsrt sph dsph junk hY => ?_⟩
  obtain ⟨P, s0, h1, h2⟩ := flip_result (dsph := dsph) hsrt hY
  obtain ⟨P', s0', h1', l2, l3⟩ := MACE.load_spec hf hsrt sph dsph
  rw [h1] at h1'
  cases h1'
  obtain ⟨Q, k1, k2⟩ := Kokkos.load_spec hf hk hsrt sph dsph junk
  refine ⟨P, s0, Q, h1, k1, fun s w t hs ht V sk hg ho hgt => ?_⟩
  obtain ⟨r, st', r1, r2, r3, r4⟩ := h2 s w t hs ht (fun _ => ⟨w, s, [], (sk 0).t⟩) hs hgt
  have z : ∀ {p}, p < 1 → p = 0 := fun h => by omega
  obtain ⟨st'', sk', q1, q2, q3⟩ := mpiK_result hf l2 k2 hR hp (fl := ⟨true, true, true, false⟩) rfl
    (st := fun _ => ⟨w, s, [], (sk 0).t⟩) (fun _ _ => ⟨hs.ok hf l2 l3, hgt⟩) V (sk := sk)
    (fun p hp' => by
      rw [z hp']
      refine ⟨hg.ok hf k2, fun v hv => ?_⟩
      rw [ho] at hv
      obtain rfl := Option.some.inj hv
      exact ⟨rfl, 0, [0, 0], rfl, le_rfl, Or.inl rfl⟩)
    (fun p hp' => Or.inr (by rw [z hp', ho]; simp)) (fun p hp' => by rw [z hp'])
  rw [r2] at q1
  obtain rfl := Option.some.inj q1
  exact ⟨r, sk', r1, q2, r3, by rw [(q3 0 (by omega)).2.2.1]; exact r4⟩

/-! ## C72: "Sort H1" -/

section
open Kokkos Kokkos.Pair
variable {A : Atoms} {L : NList} {LM C rows : ℕ} {h : ℕ → ℕ → ℕ → ℝ}

/-- C72: in every schedule, "Sort H1" gives every local atom the features of its node: for lists in any order if the two views are
different, in natural order if they are one.  Missing: the other orders in the second case, see `C72_sort_violated`. -/
theorem C72_sort_partial (V : PEnv) (hL : ListOk A L) (hr : ∀ i ∈ centres L, i < rows) :
    (∀ Hm v : View ℝ, (∀ ii < L.inum, ∀ a < LM, ∀ k < C, Hm.get [ii, a, k] = some (h ii a k)) → Room v [LM, C] rows →
      ∃ v', V.L.launch1 (sortK L.inum LM C L.ilist Hm (fun _ => v.ext)) v = some v' ∧
        ∀ i ∈ centres L, ∀ a < LM, ∀ k < C, v'.get [i, a, k] = some (h (rank (centres L) i) a k)) ∧
    (∀ v : View ℝ, (∀ ii < L.inum, ∀ a < LM, ∀ k < C, v.get [ii, a, k] = some (h ii a k)) → Room v [LM, C] rows →
      centres L = List.range L.inum →
      ∃ v', V.L.launch1 (sortSameK L.inum LM C L.ilist (fun _ => v.ext)) v = some v' ∧
        ∀ i ∈ centres L, ∀ a < LM, ∀ k < C, v'.get [i, a, k] = some (h (rank (centres L) i) a k)) := by
  have key : ∀ v' : View ℝ, RowsAt v' (centres L) LM C h →
      ∀ i ∈ centres L, ∀ a < LM, ∀ k < C, v'.get [i, a, k] = some (h (rank (centres L) i) a k) := by
    intro v' hv i hi a ha k hk
    have := hv _ (rank_lt hi) a ha k hk
    rwa [nthN_getElem (rank_lt hi), get_rank hi] at this
  refine ⟨fun Hm v hm hv => ?_, fun v hm hv ho => ?_⟩
  · obtain ⟨v', h1, -, h3⟩ := sort_spec V hL hr hm hv
    exact ⟨v', h1, key v' h3⟩
  · obtain ⟨v', h1, -, h3⟩ := sortSame_spec V hL ho hm hv
    exact ⟨v', h1, key v' h3⟩

example : ListOk flipAtoms flipList ∧ (∀ i ∈ centres flipList, i < 2) ∧ Room (⟨[2, 1, 1], [0, 0]⟩ : View ℝ) [1, 1] 2 :=
  ⟨flip_list, by decide, ⟨rfl, 2, [1, 1], rfl, le_rfl, Or.inr rfl⟩⟩

theorem eachProc_some {σ : Type} {np : ℕ} {g : ℕ → σ → Option σ} {st st' : ℕ → σ} (h : eachProc np g st = some st') {p : ℕ} (hp : p < np) :
    g p (st p) = some (st' p) := by
  have key : ∀ n st', eachProc n g st = some st' → (∀ q < n, g q (st q) = some (st' q)) ∧ ∀ q, n ≤ q → st' q = st q := by
    intro n
    induction n with
    | zero => intro st' h; rw [← Option.some.inj h]; exact ⟨fun q hq => absurd hq (Nat.not_lt_zero q), fun _ _ => rfl⟩
    | succ n ih =>
      intro st' h
      obtain ⟨s, h1, h⟩ := Option.bind_eq_some_iff.mp h
      obtain ⟨r, h2, h⟩ := Option.bind_eq_some_iff.mp h
      obtain ⟨i1, i2⟩ := ih s h1
      rw [i2 n le_rfl] at h2
      rw [← Option.some.inj h]
      refine ⟨fun q hq => ?_, fun q hq => ?_⟩
      · by_cases e : q = n
        · rw [e, Function.update_self, h2]
        · rw [Function.update_of_ne e, i1 q (by omega)]
      · rw [Function.update_of_ne (by omega), i2 q (by omega)]
  exact (key np st' h).1 p hp

theorem reverse_own {V : ℕ → PEnv} {P : Kokkos.Params ℝ} {ms : List Msg} {st st' : ℕ → ProcK} (h : reverseCommK V P ms st = some st')
    {p : ℕ} : (st' p).own = (st p).own := by
  unfold reverseCommK at h
  generalize ms.reverse = l at h
  induction l generalizing st with
  | nil => rw [← Option.some.inj h]
  | cons m l ih =>
    rw [List.foldlM_cons] at h
    obtain ⟨s, h1, h⟩ := Option.bind_eq_some_iff.mp h
    rw [ih h]
    obtain ⟨b, -, h1⟩ := Option.bind_eq_some_iff.mp h1
    obtain ⟨G, -, h1⟩ := Option.bind_eq_some_iff.mp h1
    rw [← Option.some.inj h1]
    by_cases hm : p = m.src
    · rw [hm, Function.update_self]
    · rw [Function.update_of_ne hm]

/-- After every call the pair style's view and the evaluator's are one. -/
theorem C72_shared (V : ℕ → PEnv) {zbl : Option ZBLModel.ZBL} {P : Kokkos.Params ℝ} {rc : ℝ} {mt : List ℕ} {fl : Flags} {np : ℕ}
    {A : ℕ → Atoms} {L : ℕ → NList} {ms : List Msg} {st st' : ℕ → ProcK}
    (h : computeMpiK V zbl P rc mt fl np A L ms st = some st') (p : ℕ) (hp : p < np) : (st' p).own = none := by
  unfold computeMpiK at h
  obtain ⟨s1, -, h⟩ := Option.bind_eq_some_iff.mp h
  obtain ⟨s2, -, h⟩ := Option.bind_eq_some_iff.mp h
  obtain ⟨s3, h3, h⟩ := Option.bind_eq_some_iff.mp h
  obtain ⟨s4, h4, h⟩ := Option.bind_eq_some_iff.mp h
  have e3 := eachProc_some h3 hp
  have e5 := eachProc_some h hp
  obtain ⟨_, -, e3⟩ := Option.bind_eq_some_iff.mp e3
  have n3 : (s3 p).own = none := by rw [← Option.some.inj e3]
  have n4 : (s4 p).own = none := by rw [← n3]; exact reverse_own h4
  obtain ⟨_, -, e5⟩ := Option.bind_eq_some_iff.mp e5
  obtain ⟨_, -, e5⟩ := Option.bind_eq_some_iff.mp e5
  rw [← Option.some.inj e5]
  exact n4

/-- C72 fails when the two views are one and the list is `[1, 0]`: there is a race; executing the threads one after the other leaves
both atoms with the features `x` of atom 1. -/
theorem C72_sort_violated : centres flipList = [1, 0] ∧ ∀ x y : ℝ,
    (Launcher.inOrder ℝ).launch1 (sortSameK flipList.inum 1 1 flipList.ilist (fun _ => [2, 1, 1])) ⟨[2, 1, 1], [x, y]⟩
      = some ⟨[2, 1, 1], [x, x]⟩ ∧
    ¬ RaceFree (sortSameK flipList.inum 1 1 flipList.ilist (fun _ => [2, 1, 1])) := by
  refine ⟨rfl, fun x y => ⟨rfl, fun hr => ?_⟩⟩
  obtain ⟨⟨T, R', A', -, -, -, hd, hR, -, -, hc⟩, -⟩ := hr
  obtain ⟨⟨T0, R0, A0, t0, -, -, -, -, -, -, c0⟩, -⟩ := hc 0 (by decide)
  obtain ⟨⟨T0', R0', A0', t0', -, -, -, -, -, -, c0'⟩, -⟩ := c0 0 (by decide)
  obtain ⟨⟨T1, R1, A1, t1, r1, -, -, -, -, -, c1⟩, -⟩ := hc 1 (by decide)
  obtain ⟨⟨T1', R1', A1', t1', r1', -, -, -, -, -, c1'⟩, -⟩ := c1 0 (by decide)
  have w0 : ((), 1) ∈ T 0 := t0 0 (by decide) (t0' 0 (by decide) ((c0' 0 (by decide)).2 0).1)
  have w1 : ((), 1) ∈ T 1 ∪ R' := by
    rcases (c1' 0 (by decide)).1 with h | h
    · exact Or.inl (t1 0 (by decide) (t1' 0 (by decide) h))
    · rcases r1' h with h | h
      · exact Or.inl (t1 0 (by decide) h)
      · exact r1 h
  rcases w1 with h | h
  · exact Set.disjoint_left.mp (hd 0 (by decide) 1 (by decide) (by decide)) w0 h
  · exact Set.disjoint_left.mp (hR 0 (by decide)) w0 h

end

end Verif.Props
