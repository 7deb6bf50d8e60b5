import Verif.Props.Crystal
import Verif.Props.KokkosASE

/-! # Property theorems: what must not change the results of `MACEKokkos` (C114) -/

namespace Verif.Props
open Verif.ASE Verif.MACE Verif.Spec

variable (f : File) (ne : ℕ) (sph : ℝ → ℝ → ℝ → ℕ → ℝ) (dsph : ℝ → ℝ → ℝ → ℕ → ℕ → ℝ) (junk : ℕ → ℕ → ℝ)
  {srt : List (List (List ℕ)) → List (List (List ℕ))}

theorem ZeroPadded.reads {v : View ℝ} {x : List ℝ} (h : ZeroPadded v x) {p : ℕ} (hp : p < x.length) : v.data[p]? = x[p]? := by
  rw [h.2.2 p (lt_of_lt_of_le hp h.2.1), if_pos hp]

/-- The containers of both classes agree element by element. -/
theorem kokkos_reads (hf : FileOk f) (hk : FileOkK f ne) (hs : Poly.SortFn srt) :
    ∃ P s0 Q, MACE.load srt sph dsph f = some (P, s0) ∧ Kokkos.load srt sph dsph junk ne f = some (Q, Kokkos.State.init ℝ) ∧
      ∀ T X, SysOk f T → Inside f T X → ∀ s, Hist f P s0 s → ∀ t, HistK f Q t → ∀ V : Kokkos.Env ℝ,
        ∃ s' t', computeNodeEnergiesForces f.zbl P (T.graph X) s = some s' ∧ Kokkos.compute V Q f.zbl (T.graph X) t = some t' ∧
          (∀ i < T.N, t'.energies.data[i]? = s'.nodeEnergies[i]?) ∧ (∀ p < 3 * T.E, t'.forces.data[p]? = s'.nodeForces[p]?) ∧
          t'.energies.data.sum = s'.nodeEnergies.sum ∧ s'.nodeEnergies.length = T.N ∧ s'.nodeForces.length = 3 * T.E := by
  obtain ⟨P, s0, Q, h1, h2, h3⟩ := C62_kokkos_equals_cpu (sph := sph) (dsph := dsph) (junk := junk) hf hk hs
  refine ⟨P, s0, Q, h1, h2, fun T X hT hX s hh t ht V => ?_⟩
  obtain ⟨s', t', e1, e2, l1, l2, z1, z2⟩ := h3 T X hT hX s hh t ht V
  exact ⟨s', t', e1, e2, fun i hi => z1.reads (by rw [l1]; exact hi), fun p hp => z2.reads (by rw [l2]; exact hp), z1.sum, l1, l2⟩

/-- C114: renumbering the atoms (and listing the neighbours of each atom in any order) renumbers the energies and the forces of
`MACEKokkos` and leaves the sum of its energies unchanged, whatever was computed before and for every interleaving of the threads. -/
theorem C114_relabelling (hf : FileOk f) (hk : FileOkK f ne) (hs : Poly.SortFn srt) :
    ∃ Q, Kokkos.load srt sph dsph junk ne f = some (Q, Kokkos.State.init ℝ) ∧
      ∀ T T' X X' π σ, SysOk f T → SysOk f T' → Inside f T X → Inside f T' X' → Renumbered T X T' X' π σ →
      ∀ t t', HistK f Q t → HistK f Q t' → ∀ V V' : Kokkos.Env ℝ,
      ∃ r r', Kokkos.compute V Q f.zbl (T.graph X) t = some r ∧ Kokkos.compute V' Q f.zbl (T'.graph X') t' = some r' ∧
        (∀ i < T.N, ∃ E, r.energies.data[i]? = some E ∧ r'.energies.data[π i]? = some E) ∧
        r.energies.data.sum = r'.energies.data.sum ∧
        ∀ e < T.E, ∀ a < 3, ∃ F, r.forces.data[3 * e + a]? = some F ∧ r'.forces.data[3 * σ e + a]? = some F := by
  obtain ⟨P, s0, Q, h1, h2, h3⟩ := kokkos_reads f ne sph dsph junk hf hk hs
  obtain ⟨P', s0', a1, a2⟩ := C06_relabelling f sph dsph hf hs
  rw [h1] at a1
  cases a1
  refine ⟨Q, h2, fun T T' X X' π σ hT hT' hX hX' hr t t' ht ht' V V' => ?_⟩
  obtain ⟨s, s', b1, b2, b3, b4, b5⟩ := a2 s0 s0 .init .init T T' X X' π σ hT hT' hX hX' hr
  obtain ⟨u, r, c1, c2, c3, c4, c5, -⟩ := h3 T X hT hX s0 .init t ht V
  obtain ⟨u', r', d1, d2, d3, d4, d5, d6, d7⟩ := h3 T' X' hT' hX' s0 .init t' ht' V'
  rw [b1] at c1
  cases c1
  rw [b2] at d1
  cases d1
  refine ⟨r, r', c2, d2, fun i hi => ?_, by rw [c5, d5, b4], fun e he a ha => ?_⟩
  · obtain ⟨E, e1, e2⟩ := b3 i hi
    exact ⟨E, (c3 i hi).trans e1, (d3 _ (by rw [hr.N]; exact hr.bij.1 hi)).trans e2⟩
  · obtain ⟨F, e1, e2⟩ := b5 e he a ha
    refine ⟨F, (c4 _ (by omega)).trans e1, (d4 _ ?_).trans e2⟩
    rw [← d7]
    exact (List.getElem?_eq_some_iff.1 e2).1

/-- C114: the energy of an atom depends only on its environment and those of its neighbours. -/
theorem C114_locality (hf : FileOk f) (hk : FileOkK f ne) (hs : Poly.SortFn srt) :
    ∃ Q, Kokkos.load srt sph dsph junk ne f = some (Q, Kokkos.State.init ℝ) ∧
      ∀ T T' X X', SysOk f T → SysOk f T' → Inside f T X → Inside f T' X' → ∀ i < T.N, ∀ i' < T'.N, ∀ σ, SameEnv T X T' X' i i' σ →
      (∀ e ∈ T.edg i, ∃ σ', SameEnv T X T' X' (nthN T.idx e) (nthN T'.idx (σ e)) σ') →
      ∀ t t', HistK f Q t → HistK f Q t' → ∀ V V' : Kokkos.Env ℝ,
      ∃ r r', Kokkos.compute V Q f.zbl (T.graph X) t = some r ∧ Kokkos.compute V' Q f.zbl (T'.graph X') t' = some r' ∧
        ∃ E, r.energies.data[i]? = some E ∧ r'.energies.data[i']? = some E := by
  obtain ⟨P, s0, Q, h1, h2, h3⟩ := kokkos_reads f ne sph dsph junk hf hk hs
  obtain ⟨P', s0', a1, a2⟩ := C07_locality f sph dsph hf hs
  rw [h1] at a1
  cases a1
  refine ⟨Q, h2, fun T T' X X' hT hT' hX hX' i hi i' hi' σ hσ hn t t' ht ht' V V' => ?_⟩
  obtain ⟨s, s', b1, b2, E, e1, e2⟩ := a2 s0 s0 .init .init T T' X X' hT hT' hX hX' i hi i' hi' σ hσ hn
  obtain ⟨u, r, c1, c2, c3, -⟩ := h3 T X hT hX s0 .init t ht V
  obtain ⟨u', r', d1, d2, d3, -⟩ := h3 T' X' hT' hX' s0 .init t' ht' V'
  rw [b1] at c1
  cases c1
  rw [b2] at d1
  cases d1
  exact ⟨r, r', c2, d2, E, (c3 i hi).trans e1, (d3 i' hi').trans e2⟩

/-- C114: two systems evaluated in one call of `MACEKokkos` give the energies and the forces of two calls. -/
theorem C114_separate_systems (hf : FileOk f) (hk : FileOkK f ne) (hs : Poly.SortFn srt) :
    ∃ Q, Kokkos.load srt sph dsph junk ne f = some (Q, Kokkos.State.init ℝ) ∧
      ∀ T1 T2 X1 X2, SysOk f T1 → SysOk f T2 → Inside f T1 X1 → Inside f T2 X2 →
      ∀ t t1 t2, HistK f Q t → HistK f Q t1 → HistK f Q t2 → ∀ V V1 V2 : Kokkos.Env ℝ,
      ∃ r r1 r2, Kokkos.compute V Q f.zbl ((T1.join T2).graph (joinX T1 X1 X2)) t = some r ∧
        Kokkos.compute V1 Q f.zbl (T1.graph X1) t1 = some r1 ∧ Kokkos.compute V2 Q f.zbl (T2.graph X2) t2 = some r2 ∧
        (∀ i < T1.N, ∃ E, r.energies.data[i]? = some E ∧ r1.energies.data[i]? = some E) ∧
        (∀ i < T2.N, ∃ E, r.energies.data[T1.N + i]? = some E ∧ r2.energies.data[i]? = some E) ∧
        r.energies.data.sum = r1.energies.data.sum + r2.energies.data.sum ∧
        (∀ p < 3 * T1.E, ∃ F, r.forces.data[p]? = some F ∧ r1.forces.data[p]? = some F) ∧
        ∀ p < 3 * T2.E, ∃ F, r.forces.data[3 * T1.E + p]? = some F ∧ r2.forces.data[p]? = some F := by
  obtain ⟨P, s0, Q, h1, h2, h3⟩ := kokkos_reads f ne sph dsph junk hf hk hs
  obtain ⟨P', s0', a1, a2⟩ := C07_separate_systems f sph dsph hf hs
  rw [h1] at a1
  cases a1
  refine ⟨Q, h2, fun T1 T2 X1 X2 hT1 hT2 hX1 hX2 t t1 t2 ht ht1 ht2 V V1 V2 => ?_⟩
  obtain ⟨s, s1, s2, b, b1, b2, b3, b4⟩ := a2 s0 s0 s0 .init .init .init T1 T2 X1 X2 hT1 hT2 hX1 hX2
  obtain ⟨u, r, c1, c2, c3, c4, c5, c6, c7⟩ := h3 _ _ (join_ok hT1 hT2) (join_inside hT1 hT2 hX1 hX2) s0 .init t ht V
  obtain ⟨u1, r1, d1, d2, d3, d4, d5, d6, d7⟩ := h3 T1 X1 hT1 hX1 s0 .init t1 ht1 V1
  obtain ⟨u2, r2, g1, g2, g3, g4, g5, g6, g7⟩ := h3 T2 X2 hT2 hX2 s0 .init t2 ht2 V2
  rw [b] at c1
  cases c1
  rw [b1] at d1
  cases d1
  rw [b2] at g1
  cases g1
  rw [b3] at c3 c5 c6
  rw [b4] at c4 c7
  rw [← c6, List.length_append, d6, g6] at c3
  rw [← c7, List.length_append, d7, g7] at c4
  refine ⟨r, r1, r2, c2, d2, g2, fun i hi => ⟨_, ?_, (d3 i hi).trans (List.getElem?_eq_getElem (by rw [d6]; exact hi))⟩, fun i hi =>
    ⟨_, ?_, (g3 i hi).trans (List.getElem?_eq_getElem (by rw [g6]; exact hi))⟩, by rw [c5, d5, g5, List.sum_append], fun p hp =>
    ⟨_, ?_, (d4 p hp).trans (List.getElem?_eq_getElem (by rw [d7]; exact hp))⟩, fun p hp =>
    ⟨_, ?_, (g4 p hp).trans (List.getElem?_eq_getElem (by rw [g7]; exact hp))⟩⟩
  · rw [c3 i (by omega), List.getElem?_append_left (by rw [d6]; exact hi)]
    exact List.getElem?_eq_getElem _
  · rw [c3 _ (by omega), List.getElem?_append_right (by rw [d6]; omega), d6, Nat.add_sub_cancel_left]
    exact List.getElem?_eq_getElem _
  · rw [c4 p (by omega), List.getElem?_append_left (by rw [d7]; exact hp)]
    exact List.getElem?_eq_getElem _
  · rw [c4 _ (by omega), List.getElem?_append_right (by rw [d7]; omega), d7, Nat.add_sub_cancel_left]
    exact List.getElem?_eq_getElem _

/-- C114: if the graph `T'` covers `T`, the energies and the edge forces `MACEKokkos` gives for `T'` are those of the images in `T`. -/
theorem C114_covering (hf : FileOk f) (hk : FileOkK f ne) (hs : Poly.SortFn srt) :
    ∃ Q, Kokkos.load srt sph dsph junk ne f = some (Q, Kokkos.State.init ℝ) ∧
      ∀ T X T' X' φ ψ, SysOk f T → SysOk f T' → Inside f T X → Inside f T' X' → Covers T' X' T X φ ψ →
      ∀ t t', HistK f Q t → HistK f Q t' → ∀ V V' : Kokkos.Env ℝ,
      ∃ r r', Kokkos.compute V Q f.zbl (T.graph X) t = some r ∧ Kokkos.compute V' Q f.zbl (T'.graph X') t' = some r' ∧
        (∀ v < T'.N, ∃ E, r'.energies.data[v]? = some E ∧ r.energies.data[φ v]? = some E) ∧
        ∀ e < T'.E, ∀ a < 3, ∃ F, r'.forces.data[3 * e + a]? = some F ∧ r.forces.data[3 * ψ e + a]? = some F := by
  obtain ⟨P, s0, Q, h1, h2, h3⟩ := kokkos_reads f ne sph dsph junk hf hk hs
  obtain ⟨P', s0', a1, a2⟩ := C106_covering f sph dsph hf hs
  rw [h1] at a1
  cases a1
  refine ⟨Q, h2, fun T X T' X' φ ψ hT hT' hX hX' hc t t' ht ht' V V' => ?_⟩
  obtain ⟨s, s', b1, b2, b3, b4⟩ := a2 T X T' X' φ ψ hT hT' hX hX' hc s0 s0 .init .init
  obtain ⟨u, r, c1, c2, c3, c4, -⟩ := h3 T X hT hX s0 .init t ht V
  obtain ⟨u', r', d1, d2, d3, d4, -⟩ := h3 T' X' hT' hX' s0 .init t' ht' V'
  rw [b1] at c1
  cases c1
  rw [b2] at d1
  cases d1
  refine ⟨r, r', c2, d2, fun v hv => ?_, fun e he a ha => ?_⟩
  · obtain ⟨E, e1, e2⟩ := b3 v hv
    exact ⟨E, (d3 v hv).trans e1, (c3 _ (hc.node v hv)).trans e2⟩
  · obtain ⟨F, e1, e2⟩ := b4 e he a ha
    have := hc.lt he
    exact ⟨F, (d4 _ (by omega)).trans e1, (c4 _ (by omega)).trans e2⟩

/-- C114, calculator with the Kokkos evaluator: `c` and `c'` describe the same structure. Every atom of `c'` gets the force of the atom of
`c` that it is an image of; if every atom of `c` has `n` images in `c'`, the total energy is `n` times that of `c`, and the stress is the
same. (The last atoms must have neighbours, see C46.) -/
theorem C114_crystal (hf : FileOk f) (hk : FileOkK f ne) (hs : Poly.SortFn srt) :
    ∃ Q, Kokkos.load srt sph dsph junk ne f = some (Q, Kokkos.State.init ℝ) ∧
      ∀ c c' φ τ B rc i j S i' j' S', SameCrystal c c' φ τ B →
      c.Neighbours rc i j S → c'.Neighbours rc i' j' S' → i.Pairwise (· ≤ ·) → i'.Pairwise (· ≤ ·) →
      Known f.atomicNumbers c.Z → (∀ e < i.length, InTable f (len (bonds c i j S e))) → c.Z.length - 1 ∈ i → c'.Z.length - 1 ∈ i' →
      ∀ vol vol' t t', HistK f Q t → HistK f Q t' → ∀ V V' : Kokkos.Env ℝ,
      ∃ r r', calculateK V f.zbl Q c.Z vol (pairsOf i j (bonds c i j S)) t = some r ∧
        calculateK V' f.zbl Q c'.Z vol' (pairsOf i' j' (bonds c' i' j' S')) t' = some r' ∧
        (∀ a < c'.Z.length, ∀ d < 3, ∃ l l' F, r.2.forces[d]? = some l ∧ r'.2.forces[d]? = some l' ∧ l'[a]? = some F ∧ l[φ a]? = some F) ∧
        ∀ n, (∀ b < c.Z.length, ((Finset.range c'.Z.length).filter (fun a => φ a = b)).card = n) →
          r'.2.energy = n * r.2.energy ∧ (n ≠ 0 → vol' = n * vol → r'.2.stress = r.2.stress) := by
  obtain ⟨P, s0, Q, h1, h2, h3⟩ := C76_kokkos_calculator (sph := sph) (dsph := dsph) (junk := junk) hf hk hs
  obtain ⟨P', s0', a1, a2⟩ := C106_crystal f sph dsph hf hs
  rw [h1] at a1
  cases a1
  refine ⟨Q, h2, fun c c' φ τ B rc i j S i' j' S' h hn hn' ho ho' hkn hin hl hl' vol vol' t t' ht ht' V V' => ?_⟩
  obtain ⟨ψ, hψ, -⟩ := crystal_covers h hn hn' (mace := f.atomicNumbers) ho ho'
  have hc : CalcOk f c.Z i j (bonds c i j S) := ⟨neighbours_pairs hn ho, hkn, hin⟩
  have hc' : CalcOk f c'.Z i' j' (bonds c' i' j' S') := by
    refine ⟨neighbours_pairs hn' ho', fun z hz => ?_, fun e he => ?_⟩
    · obtain ⟨a, ha, rfl⟩ := List.getElem_of_mem hz
      rw [← nthN_eq ha, h.elem a ha]
      exact hkn.nth (h.atom a ha)
    · rw [← image_bond h hn hn' he (hψ e he)]
      exact hin _ (hψ e he).1
  obtain ⟨s, s', b1, b2, b3, b4⟩ := a2 c c' φ τ B rc i j S i' j' S' h hn hn' ho ho' hkn hin hl hl' vol vol' s0 s0 .init .init
  obtain ⟨u, r, c1, c2, -, c3, c4, c5⟩ := h3 c.Z i j vol _ (by rintro rfl; cases hl) hc s0 .init t ht V
  obtain ⟨u', r', d1, d2, -, d3, d4, d5⟩ := h3 c'.Z i' j' vol' _ (by rintro rfl; cases hl') hc' s0 .init t' ht' V'
  rw [b1] at c1
  cases c1
  rw [b2] at d1
  cases d1
  refine ⟨r, r', c2, d2, fun a ha => ?_, fun n hn => ?_⟩
  · rw [c4, d4]
    exact (b3 a ha).2
  · rw [c3, d3, c5, d5]
    exact b4 n hn

/-- The hypotheses on renumbering are met by two atoms exchanged, the ones on joined systems by a system with itself, and the ones on
crystals by a chain described with one and with two atoms per cell. -/
example : FileOk exFile ∧ FileOkK exFile 2 ∧ SysOk exFile exSys ∧ Inside exFile exSys exX ∧ SysOk exFile exSys' ∧
    Inside exFile exSys' (fun e => exX (1 - e)) ∧
    Renumbered exSys exX exSys' (fun e => exX (1 - e)) (fun i => 1 - i) (fun e => 1 - e) ∧
    SysOk exFile (exSys.join exSys) ∧ Inside exFile (exSys.join exSys) (joinX exSys exX exX) ∧
    SameCrystal exChain exChain2 (fun _ => 0) (fun a k => if k = 0 then a else 0)
      (fun k l => if k = l then (if k = 0 then 2 else 1) else 0) ∧
    exChain.Neighbours 2 [0, 0] [0, 0] exChainS ∧ exChain2.Neighbours 2 [0, 0, 1, 1] [1, 1, 0, 0] exChain2S ∧
    ∃ srt, Poly.SortFn srt := by
  refine ⟨exFile_ok, exFile_okK, exSys_ok, exInside,
    ⟨by decide, by decide, by decide, by decide, by decide, by decide, by decide⟩, ?_, ⟨rfl, ?_, ?_, by decide⟩,
    join_ok exSys_ok exSys_ok, join_inside exSys_ok exSys_ok exInside exInside, exChain_same, exChain_near, exChain2_near, _, exSort⟩
  · intro e he
    have h2 : e < 2 := he
    exact exInside (1 - e) (by show 1 - e < 2; omega)
  · refine ⟨fun i hi => ?_, fun i hi j hj h => ?_, fun i hi => ⟨1 - i, ?_, ?_⟩⟩
    all_goals simp only [Set.mem_Iio, exSys] at *
    all_goals omega
  · intro i hi
    have h2 : i < 2 := hi
    have e1 : exSys.edg i = {i} := by interval_cases i <;> rfl
    have e2 : exSys'.edg (1 - i) = {1 - i} := by interval_cases i <;> rfl
    refine ⟨by interval_cases i <;> rfl, ?_, fun e he a _ => ?_, fun e he => ?_⟩
    · rw [e1, e2]
      simp [Set.bijOn_singleton]
    · rw [e1, Finset.mem_singleton] at he
      subst he
      have : 1 - (1 - e) = e := by omega
      simp only [this]
    · rw [e1, Finset.mem_singleton] at he
      subst he
      interval_cases e <;> rfl

end Verif.Props
