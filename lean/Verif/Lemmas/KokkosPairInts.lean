import Verif.Model.Kokkos.PairInts
import Verif.Lemmas.LammpsInts
import Verif.Lemmas.IntIndex.Kok

/-! `int` expressions of the Kokkos pair style: what has to fit. -/

namespace Verif.LammpsInts.Kok
open Verif.MACE Verif.Spec Verif.IntIndex Verif.IntIndex.Kok

variable {f : File} {T : Sys} {P0 : ℕ → ℕ} {P1 : ℕ}

theorem xyz_ok {e : ℕ} (hE : 3 * T.E < 2147483648) (he : e < T.E) : xyz e = some () := by
  refine seq ?_ (seq ?_ ?_) <;> rw [ev_iff] <;> simp <;> omega

theorem scan_ok (hn : T.N ≤ T.nn.length) (hE : 3 * T.E < 2147483648) : scan T = some () := by
  refine each_ok fun i hi => ?_
  have h1 := pos_succ T (i := i) (by omega)
  have h2 := pos_le T (i := i + 1) (by omega)
  have h3 : first T i = pos T i := rfl
  rw [ev_iff]; simp only [ok_add, ok_n, val_n, true_and]; omega

theorem pairs_ok (hn : T.N ≤ T.nn.length) (hE : 3 * T.E < 2147483648) : Kok.edges T (fun _ ij => xyz ij) = some () := by
  refine each_ok fun i hi => each_ok fun j hj => ?_
  have := first_lt hn hi hj
  exact seq (by rw [ev_iff]; simp only [ok_add, ok_n, val_n, true_and]; omega) (xyz_ok hE this)

theorem scatter_ok (hn : T.N ≤ T.nn.length) (hE : 3 * T.E < 2147483648) (v : Bool) : Kok.scatter T v = some () := by
  refine seq (pairs_ok hn hE) ?_
  split
  · exact pairs_ok hn hE
  · rfl

theorem fill_ok (hn : T.N ≤ T.nn.length) (hE : 3 * T.E < 2147483648) : Kok.fill T = some () := by
  refine each_ok fun i hi => each_ok fun j hj => ?_
  have := first_lt hn hi hj
  refine seq (xyz_ok hE this) ?_
  rw [ev_iff]; simp only [ok_add, ok_n, val_n, ok_1, val_1, true_and]; omega

theorem build_ok (hn : T.N ≤ T.nn.length) (hE : 3 * T.E < 2147483648) : Kok.build T = some () := by
  refine seq (each_ok fun i hi => countNeigh_ok hn hE hi) (seq (sumNeigh_ok hn (by omega) (by omega)) (seq (scan_ok hn hE)
    (seq ?_ (fill_ok hn hE))))
  rw [ev_iff]; simpa using hE

theorem three_of_Y (h : Kok.computeY f T = some ()) : 3 * T.E < 2147483648 := by
  unfold Kok.computeY at h
  simp only [seq_iff, ev_iff] at h
  simpa using h.2.2.2.1

theorem three_of_compute {cell : Cells} (h : Kok.computeInts f P0 P1 T cell = some ()) : 3 * T.E < 2147483648 := by
  unfold Kok.computeInts at h
  simp only [seq_iff] at h
  exact three_of_Y h.2.2.2.1

theorem single_iff (hn : T.N ≤ T.nn.length) (cell : Cells) (v : Bool) :
    Kok.single f P0 P1 T cell v = some () ↔ Kok.computeInts f P0 P1 T cell = some () := by
  unfold Kok.single
  rw [seq_iff, seq_iff]
  refine ⟨fun h => h.2.1, fun h => ?_⟩
  have hE := three_of_compute h
  exact ⟨build_ok hn hE, h, scatter_ok hn hE v⟩

/-! ### Messages -/

theorem buffer_ok {n : ℕ} {g : ℕ → Option Unit} (hC : 1 ≤ C f) (hn : n * LM f * C f < 2147483648) (hg : ∀ i < n, g i = some ()) :
    buffer f n g = some () := by
  refine each_ok fun i hi => each_ok fun m hm => each_ok fun k hk => seq ?_ (hg i hi)
  have h1 : (i + 1) * LM f * C f ≤ n * LM f * C f := by gcongr; omega
  have h2 : (m + 1) * C f ≤ LM f * C f := Nat.mul_le_mul_right _ hm
  rw [add_mul, add_mul, one_mul] at h1
  rw [add_mul, one_mul] at h2
  have h3 : i * LM f ≤ i * LM f * C f := Nat.le_mul_of_pos_right _ hC
  rw [ev_iff]
  simp only [ok_mul, ok_add, ok_n, val_n, val_mul, val_add, true_and, and_true]
  refine ⟨⟨⟨?_, ?_⟩, ?_, ?_⟩, ?_⟩ <;> omega

section
variable {N : ℕ} {sent : List (List ℕ)} {got : List (ℕ × ℕ)} (hC : 1 ≤ C f) (hN : N < 2147483648) (hg : ∀ m ∈ got, m.2 + m.1 ≤ N)
include hC hN hg

theorem consecutive_ok {m : ℕ × ℕ} (hm : m ∈ got) (h : m.1 * LM f * C f < 2147483648) : Kok.consecutive f m.1 m.2 = some () := by
  have := hg m hm
  refine buffer_ok hC h fun i hi => ?_
  rw [ev_iff]; simp only [ok_add, ok_n, val_n, true_and]; omega

theorem exchange_iff : (Kok.forward f sent got = some () ∧ Kok.reverse f sent got = some ()) ↔
    (∀ l ∈ sent, l.length * LM f * C f < 2147483648) ∧ ∀ m ∈ got, m.1 * LM f * C f < 2147483648 := by
  unfold Kok.forward Kok.reverse
  simp only [seq_iff, each_iff]
  constructor
  · rintro ⟨⟨h1, -⟩, h2, -⟩
    constructor
    · intro l hl
      obtain ⟨s, hs, rfl⟩ := List.getElem_of_mem hl
      have := (h1 s hs).2
      rw [getD_eq _ hs] at this
      exact (returned_iff hC).1 this
    · intro m hm
      obtain ⟨s, hs, rfl⟩ := List.getElem_of_mem hm
      have := (h2 s hs).2
      rw [getD_eq _ hs] at this
      exact (returned_iff hC).1 this
  · rintro ⟨h1, h2⟩
    have a : ∀ s < sent.length, Kok.listed f (sent.getD s []).length = some () :=
      fun s hs => buffer_ok hC (h1 _ (getD_mem _ hs)) fun _ _ => rfl
    have b : ∀ s < got.length, Kok.consecutive f (got.getD s (0, 0)).1 (got.getD s (0, 0)).2 = some () :=
      fun s hs => consecutive_ok hC hN hg (getD_mem _ hs) (h2 _ (getD_mem _ hs))
    exact ⟨⟨fun s hs => ⟨a s hs, (returned_iff hC).2 (h1 _ (getD_mem _ hs))⟩, b⟩,
      fun s hs => ⟨b s hs, (returned_iff hC).2 (h2 _ (getD_mem _ hs))⟩, a⟩

end

theorem mpi_iff (hC : 1 ≤ C f) (hn : T.N ≤ T.nn.length) (cell : Cells) {nghost : ℕ} {sent : List (List ℕ)} {got : List (ℕ × ℕ)}
    (hg : ∀ m ∈ got, m.2 + m.1 ≤ T.N + nghost) (v : Bool) :
    Kok.mpi f P0 P1 T cell nghost sent got v = some () ↔ Kok.computeInts f P0 P1 T cell = some () ∧ T.N + nghost < 2147483648 ∧
      (∀ l ∈ sent, l.length * LM f * C f < 2147483648) ∧ ∀ m ∈ got, m.1 * LM f * C f < 2147483648 := by
  unfold Kok.mpi Kok.computeInts Kok.layer0 Kok.layer1 Kok.back0
  simp only [seq_iff]
  have e : ev ((T.N : Ex) + (nghost : Ex)) = some () ↔ T.N + nghost < 2147483648 := by
    rw [ev_iff]; simp only [ok_add, ok_n, val_n, true_and]
  constructor
  · rintro ⟨-, z, ⟨y, r0, a0, s0, m0, h1⟩, g, fw, ⟨r1, -, p1, a1, s1, -, m1, h2, h2', m1', s1', a1', p1'⟩, rv, ⟨h1', m0', s0', a0'⟩, -⟩
    have hN := e.1 g
    exact ⟨⟨z, r0, r1, y, a0, s0, m0, h1, p1, a1, s1, m1, h2, h2', m1', s1', a1', p1', h1', m0', s0', a0'⟩, hN,
      (exchange_iff hC hN hg).1 ⟨fw, rv⟩⟩
  · rintro ⟨⟨z, r0, r1, y, a0, s0, m0, h1, p1, a1, s1, m1, h2, h2', m1', s1', a1', p1', h1', m0', s0', a0'⟩, hN, x⟩
    obtain ⟨fw, rv⟩ := (exchange_iff hC hN hg).2 x
    have hE := three_of_Y y
    exact ⟨build_ok hn hE, z, ⟨y, r0, a0, s0, m0, h1⟩, e.2 hN, fw, ⟨r1, trivial, p1, a1, s1, by split <;> rfl, m1, h2, h2', m1', s1', a1', p1'⟩, rv,
      ⟨h1', m0', s0', a0'⟩, scatter_ok hn hE v⟩

/-! ### Ghost nodes -/

section
variable {NH : ℕ} {cell : Cells} (hf : FileOk f) (hT : SysIn f T NH)
include hf hT

theorem layer0_ok (F : FactsA f T P0 P1) (hL : f.Lmax + 1 < 2147483648) (hc : cell.Fit T.E) : Kok.layer0 f P0 T cell = some () :=
  seq F.computeY_ok (seq (F.computeR0_ok hT (fun e he => (hc e he).1)) (seq F.computeA0_ok
    (seq (F.computeScaled_ok hT _ (fun h => (hf.A0s h).2.1) (fun e he => (hc e he).2.2.1)) (seq F.M0ints_ok (F.H1ints_ok hL)))))

theorem layer1_ok (F : FactsK f T P0 P1) (hc : cell.Fit T.E) {more : ℕ → (ℕ → ℕ) → Option Unit}
    (h1 : more f.vals1.length cell.r1 = some ()) (h2 : f.A1scaled = true → more f.A1vals.length cell.a1 = some ()) :
    Kok.layer1 f P1 T cell more = some () := by
  have h2' : (if f.A1scaled then more f.A1vals.length cell.a1 else some ()) = some () := by
    split
    · exact h2 ‹_›
    · rfl
  exact seq (F.evaluate_ok hT hf.vals1 (fun e he => (hc e he).2.1)) (seq h1 (seq (F.computePhi1_ok hf) (seq F.A1ints_ok
    (seq (F.computeScaled_ok hT _ (fun h => (hf.A1s h).2.1) (fun e he => (hc e he).2.2.2)) (seq h2' (seq F.M1ints_ok (seq F.H2ints_ok
    (seq F.H2ints_ok (seq F.M1ints_ok (seq (F.reverseScaled_ok _) (seq F.A1ints_ok (F.reversePhi1_ok hf))))))))))))

omit hf hT in
theorem back0_ok (F : FactsA f T P0 P1) (hL : f.Lmax + 1 < 2147483648) : Kok.back0 f P0 T = some () :=
  seq (F.H1ints_ok hL) (seq F.M0ints_ok (seq (F.reverseScaled_ok _) F.reverseA0_ok))

end

theorem evalGhost_ok {NH n tables : ℕ} {cell : ℕ → ℕ} (hT : SysIn f T NH) (F : FactsA f T P0 P1)
    (ht : tables = (pairList f.nT).length) (hc : ∀ e < T.E, cell e < 2 ^ 31) : evalGhost T n tables cell = some () := by
  have hu : unique tables = f.nT := by rw [ht]; exact Kokkos.uniqueTypes_pairs f.nT
  unfold evalGhost
  rw [hu]
  refine seq F.nE (each_ok fun e he => ?_)
  have hN : 0 < T.N := by
    rcases Nat.eq_zero_or_pos T.N with h | h
    · have : T.E = 0 := by simp [Sys.E, h]
      omega
    · exact h
  have h1 := hT.typ 0 hN
  have h2 := hT.nty ((loc T n).E + e) (by omega)
  refine seq ?_ ((narrow_iff _).2 (hc _ (by omega)))
  split
  · exact F.pairType_ok h1 h2
  · exact F.pairType_ok h2 h1

theorem noMpi_iff (hf : FileOk f) (hT : SysOk f T) {n : ℕ} (hn : n ≤ T.N) (h : FileFitsK f P0 P1) {cell : Cells} (hc : cell.Fit T.E)
    (nlocal nghost : ℕ) (v : Bool) :
    Kok.noMpi f P0 P1 T n cell nlocal nghost v = some () ↔ nlocal + nghost < 2147483648 ∧ GhostFitsK f T.N T.E n := by
  unfold Kok.noMpi
  rw [seq_iff, ev_iff]
  simp only [ok_add, ok_n, val_n, true_and]
  refine and_congr_right fun _ => ⟨fun e => ?_, fun h' => ?_⟩
  · simp only [seq_iff] at e
    obtain ⟨-, -, -, -, -, -, -, -, -, -, l0, l1, -⟩ := e
    unfold Kok.layer0 Kok.computeY Kok.computeA0 M0ints at l0
    unfold Kok.layer1 Kok.computePhi1 H2ints at l1
    simp only [seq_iff, ev_iff, ok_mul, ok_n, val_n, val_mul, ok_3, val_3, true_and] at l0 l1
    obtain ⟨⟨-, -, hY, -⟩, -, ⟨-, hA, -⟩, -, ⟨hM, -⟩, -⟩ := l0
    obtain ⟨-, -, ⟨-, hP, -⟩, -, -, -, -, ⟨hH, -⟩, -⟩ := l1
    exact ⟨hY.2, hA, hM, hP, hH⟩
  · have hM1 : 1 ≤ M f := Nat.mul_pos (by omega) (by omega)
    have hLM1 : 1 ≤ LM f := Nat.mul_pos (by omega) (by omega)
    have F : FactsA f T P0 P1 :=
      { hC := hf.C, hM := hM1, hn := hT.nn, EM3 := h'.harm, NM := h'.A0, NLM := h'.M0
        MC := h.chan, PC := h.rad1, CC := h.mix, eC := h.phi1, tab := h.tables, cg := h.cg, p0 := h.poly0, p1 := h.poly1 }
    have hl := loc_E hn
    have hT' := loc_in hT hn
    have F' : FactsK f (loc T n) P0 P1 := factsK hf hT' h
      { harm := lt_of_le_of_lt (by gcongr) h'.harm
        A0 := lt_of_le_of_lt (Nat.mul_le_mul_right _ hn) h'.A0
        M0 := lt_of_le_of_lt (Nat.mul_le_mul_right _ hn) h'.M0
        phi1r := h'.phi1r
        H2 := h'.H2 }
    have hE := F.hE
    have hN : T.N < 2147483648 := cut F.NLM hLM1
    have hL : f.Lmax + 1 < 2147483648 := lt_of_le_of_lt (Nat.le_mul_of_pos_right _ (by omega)) h.hidden
    have hz : (if f.zbl.isSome then Kok.zbl (loc T n) else some ()) = some () := by
      split
      · exact F'.zbl_ok
      · rfl
    refine seq ((narrow_iff _).2 (by omega)) (seq (each_ok fun i hi => ?_) (seq ?_ (seq (each_ok fun i hi => countNeigh_ok hT.nn hE hi)
      (seq (sumNeigh_ok hT.nn (by omega) (by omega)) (seq (sumNeigh_ok hT.nn (by omega) (by omega)) (seq F.scan_ok (seq ?_
      (seq (fill_ok hT.nn hE) (seq hz (seq (layer0_ok hf hT F hL hc) (seq (layer1_ok hf hT' F' (fun e he => hc e (by omega))
        (evalGhost_ok hT F hf.vals1 fun e he => (hc e he).2.1)
        (fun hs => evalGhost_ok hT F (hf.A1s hs).2.1 fun e he => (hc e he).2.2.2))
      (seq (back0_ok F hL) (scatter_ok hT.nn hE v)))))))))))))
    all_goals
      rw [ev_iff]
      simp only [ok_mul, ok_add, ok_n, val_n, val_add, ok_1, val_1, ok_3, val_3, true_and]
      omega

end Verif.LammpsInts.Kok
