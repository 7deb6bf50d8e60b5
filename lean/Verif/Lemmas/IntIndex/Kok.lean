import Verif.Model.Kokkos.IntIndex
import Verif.Lemmas.IntIndex.Fits
import Verif.Lemmas.MACE.Load
import Verif.Lemmas.PairIndex
import Verif.Lemmas.Kokkos.LoadFeat

/-! `int` expressions of `MACEKokkos`: no overflow exactly if the products fit. -/

namespace Verif.IntIndex.Kok
open Verif.MACE Verif.Spec

variable {f : File} {T : Sys} {P0 : ℕ → ℕ} {P1 : ℕ}

theorem seq_left {a b : Option Unit} (h : (do a; b) = some ()) : a = some () := by cases a with | none => simp at h | some u => rfl
theorem seq_right {a b : Option Unit} (h : (do a; b) = some ()) : b = some () := by cases a with | none => simp at h | some u => exact h

theorem first_lt (hn : T.N ≤ T.nn.length) {i j : ℕ} (hi : i < T.N) (hj : j < nthN T.nn i) : first T i + j < T.E := by
  have h1 := pos_succ T (i := i) (by omega)
  have h2 := pos_le T (i := i + 1) (by omega)
  have h3 : first T i = pos T i := rfl
  omega

/-- The facts used at every site of the first layer. -/
structure FactsA (f : File) (T : Sys) (P0 : ℕ → ℕ) (P1 : ℕ) : Prop where
  hC : 1 ≤ C f
  hM : 1 ≤ M f
  hn : T.N ≤ T.nn.length
  EM3 : 3 * T.E * M f < 2147483648
  NM : T.N * M f < 2147483648
  NLM : T.N * LM f < 2147483648
  MC : M f * C f < 2147483648
  PC : f.phil.length * C f < 2147483648
  CC : C f * C f < 2147483648
  eC : numLme f * C f < 2147483648
  tab : 4 * (f.nT * (f.nT + 1)) + 1 < 2147483648
  cg : f.cg.length < 2147483648
  p0 : ∀ lm < LM f, M f + P0 lm < 2147483648
  p1 : M f + P1 < 2147483648

/-- The facts used at every site. -/
structure FactsK (f : File) (T : Sys) (P0 : ℕ → ℕ) (P1 : ℕ) : Prop extends FactsA f T P0 P1 where
  NQ : T.N * numLelm f < 2147483648
  NC : T.N * C f < 2147483648

theorem factsK {NH : ℕ} (hf : FileOk f) (hT : SysIn f T NH) (h : FileFitsK f P0 P1) (h' : SysFitsK f T.N T.E) : FactsK f T P0 P1 :=
  { hC := hf.C, hM := Nat.mul_pos (by omega) (by omega), hn := hT.nn, EM3 := h'.harm, NM := h'.A0, NLM := h'.M0, NQ := h'.phi1r,
    NC := h'.H2, MC := h.chan, PC := h.rad1, CC := h.mix, eC := h.phi1, tab := h.tables, cg := h.cg, p0 := h.poly0, p1 := h.poly1 }

namespace FactsA
variable (F : FactsA f T P0 P1)
include F

theorem hE : 3 * T.E < 2147483648 := cut F.EM3 F.hM

theorem scan_ok : scan T = some () := by
  have hE := F.hE
  refine each_ok fun i hi => ?_
  have h1 := pos_succ T (i := i) (by have := F.hn; omega)
  have h2 := pos_le T (i := i + 1) (by omega)
  have h3 : first T i = pos T i := rfl
  rw [ev_iff]; simp only [ok_add, ok_n, val_n, true_and]; omega

theorem edges_ok {g : ℕ → ℕ → Option Unit} (hg : ∀ i < T.N, ∀ e < T.E, g i e = some ()) : edges T g = some () := by
  have hE := F.hE
  refine each_ok fun i hi => each_ok fun j hj => ?_
  have := first_lt F.hn hi hj
  exact seq (by rw [ev_iff]; simp only [ok_add, ok_n, val_n, true_and]; omega) (hg i hi _ this)

theorem ijLists_ok : ijLists T = some () := by
  have hE := F.hE
  refine each_ok fun i hi => each_ok fun j hj => ?_
  have := first_lt F.hn hi hj
  rw [ev_iff]; simp only [ok_add, ok_n, val_n, ok_1, val_1, true_and]; omega

theorem xyz_ok {e : ℕ} (he : e < T.E) : xyz e = some () := by
  have hE := F.hE
  refine seq ?_ (seq ?_ ?_) <;> rw [ev_iff] <;> simp <;> omega

theorem zbl_ok : zbl T = some () := seq F.scan_ok (F.edges_ok fun _ _ _ he => F.xyz_ok he)

theorem nE : narrow T.E = some () := by have := F.hE; rw [narrow_iff]; omega

theorem Mlt : M f < 2147483648 := cut F.MC F.hC

theorem lmC : ev (((f.lmax : Ex) + 1) * (C f : Ex)) = some () := by
  have h1 : f.lmax + 1 ≤ M f := Nat.le_mul_of_pos_right _ (by omega)
  have h2 := F.Mlt
  rw [ev_iff]
  simp only [ok_mul, ok_add, ok_n, val_n, val_add, ok_1, val_1, true_and, and_true]
  exact ⟨by omega, mul2 F.MC h1 le_rfl⟩

theorem computeR0_ok {NH : ℕ} (hT : SysIn f T NH) {cell : ℕ → ℕ} (hc : ∀ e < T.E, cell e < 2 ^ 31) : computeR0 f cell T = some () := by
  refine seq F.scan_ok (seq F.ijLists_ok (seq F.nE (F.edges_ok fun i hi e he => seq ?_ (seq ((narrow_iff _).2 (hc e he)) F.lmC))))
  rw [narrow_iff]
  have h1 := hT.typ i hi
  have h2 := hT.nty e he
  have h3 := F.tab
  have h4 : (nthN T.types i + 1) * f.nT ≤ f.nT * f.nT := Nat.mul_le_mul_right _ h1
  have h5 : f.nT * (f.nT + 1) = f.nT * f.nT + f.nT := by ring
  rw [add_mul] at h4
  omega

theorem pairType_ok {a b : ℕ} (ha : a < f.nT) (hb : b < f.nT) : pairType f.nT a b = some () := by
  have h3 := F.tab
  have h5 : f.nT * (f.nT + 1) = f.nT * f.nT + f.nT := by ring
  have h6 : a * (2 * f.nT - a - 1) ≤ f.nT * (2 * f.nT) := Nat.mul_le_mul ha.le (by omega)
  have h7 : f.nT * (2 * f.nT) = 2 * (f.nT * f.nT) := by ring
  have h8 : a * (2 * f.nT - a - 1) / 2 ≤ a * (2 * f.nT - a - 1) := Nat.div_le_self _ _
  refine seq ?_ (seq ?_ ?_) <;> rw [ev_iff] <;> simp only [ok_mul, ok_add, ok_n, val_n, ok_2, val_2, true_and] <;> omega

theorem evaluate_ok {NH : ℕ} (hT : SysIn f T NH) {tables : ℕ} (ht : tables = (pairList f.nT).length) {cell : ℕ → ℕ} (hc : ∀ e < T.E, cell e < 2 ^ 31) :
    evaluate tables ((Nat.sqrt (8 * tables + 1) - 1) / 2) cell T = some () := by
  have hu : (Nat.sqrt (8 * tables + 1) - 1) / 2 = f.nT := by rw [ht]; exact Kokkos.uniqueTypes_pairs f.nT
  have h2 := two_mul_pairList_length f.nT
  have h3 := F.tab
  rw [hu]
  refine seq F.scan_ok (seq F.ijLists_ok (seq ?_ (seq F.nE (F.edges_ok fun i hi e he => seq ?_ ((narrow_iff _).2 (hc e he))))))
  · rw [ev_iff]
    have : ((8 : Ex)).val = 8 := rfl
    have h8 : ((8 : Ex)).ok = true := rfl
    simp only [ok_mul, ok_add, ok_n, val_n, val_mul, this, h8, ok_1, val_1, true_and, and_true]
    omega
  · split
    · exact F.pairType_ok (hT.typ i hi) (hT.nty e he)
    · exact F.pairType_ok (hT.nty e he) (hT.typ i hi)

theorem grad_ok {e lm : ℕ} (he : e < T.E) (hlm : lm < M f) : 3 * e * M f + 2 * M f + lm < 2147483648 := by
  refine lt_of_le_of_lt ?_ F.EM3
  have : (3 * e + 3) * M f ≤ 3 * T.E * M f := Nat.mul_le_mul_right _ (by omega)
  rw [add_mul] at this
  omega

theorem EM : T.E * M f < 2147483648 := lt_of_le_of_lt (Nat.mul_le_mul_right _ (by omega)) F.EM3

theorem computeY_ok : computeY f T = some () := by
  have hE := F.hE
  have hM3 := F.EM3
  refine seq F.nE (seq (ev2 F.EM) (seq ?_ (seq ?_ (seq (each_ok fun i hi => F.xyz_ok hi) (each_ok fun i hi => each_ok fun lm hlm => ?_)))))
  · rw [ev_iff]; simpa using ⟨hE, hM3⟩
  · rw [ev_iff]; simpa using hE
  · have hb := F.grad_ok hi hlm
    refine seq ?_ (seq ?_ ?_) <;> rw [ev_iff] <;> simp only [ok_mul, ok_add, ok_n, val_n, val_mul, val_add, ok_0, ok_1, ok_2, ok_3,
      val_0, val_1, val_2, val_3, true_and, and_true] <;> omega

theorem off_ok {e lm : ℕ} (he : e < T.E) (hlm : lm < M f) : ev ((e : Ex) * (M f : Ex) + (lm : Ex)) = some () := by
  have h : (e + 1) * M f ≤ T.E * M f := Nat.mul_le_mul_right _ he
  have h' := F.EM
  rw [add_mul] at h
  rw [ev_iff]; simp only [ok_mul, ok_add, ok_n, val_n, val_mul, true_and, and_true]; omega

theorem lk_ok {lm k : ℕ} (hlm : lm < M f) (hk : k < C f) : ev ((Nat.sqrt lm : Ex) * (C f : Ex) + (k : Ex)) = some () := by
  have h0 := F.MC
  have h1 : Nat.sqrt lm ≤ lm := Nat.sqrt_le_self lm
  have h2 : (Nat.sqrt lm + 1) * C f ≤ M f * C f := Nat.mul_le_mul_right _ (by omega)
  rw [add_mul] at h2
  rw [ev_iff]; simp only [ok_mul, ok_add, ok_n, val_n, val_mul, true_and, and_true]; omega

theorem computeA0_ok : computeA0 f T = some () :=
  seq F.scan_ok (seq (ev2 F.NM) (each_ok fun _ hlm => F.edges_ok fun _ _ _ he =>
    seq (F.off_ok he hlm) (each_ok fun _ hk => F.lk_ok hlm hk)))

theorem reverseA0_ok : reverseA0 f T = some () := by
  refine seq F.scan_ok (F.edges_ok fun i hi e he => seq (F.xyz_ok he) (seq (ev2 (mul2 F.EM he.le le_rfl)) (seq ?_
    (each_ok fun lm hlm => seq (each_ok fun k hk => F.lk_ok hlm hk) (seq ?_ ?_)))))
  · have := F.hE
    rw [ev_iff]
    simp only [ok_mul, ok_n, val_n, val_mul, ok_3, val_3, true_and]
    exact ⟨by omega, mul2 F.EM3 (by omega) le_rfl⟩
  all_goals
    have := F.grad_ok he hlm
    have h1 : M f ≤ 2 * M f := by omega
    rw [ev_iff]
    simp only [ok_mul, ok_add, ok_n, val_n, val_mul, ok_2, val_2, true_and, and_true]
    omega

theorem computeScaled_ok {NH : ℕ} (hT : SysIn f T NH) (b : Bool) {tables : ℕ} (ht : b = true → tables = (pairList f.nT).length) {cell : ℕ → ℕ}
    (hc : ∀ e < T.E, cell e < 2 ^ 31) : computeScaled f b tables ((Nat.sqrt (8 * tables + 1) - 1) / 2) cell T = some () := by
  cases b with
  | false => rfl
  | true => exact seq (F.evaluate_ok hT (ht rfl) hc) (seq F.scan_ok (seq (F.edges_ok fun _ _ _ _ => rfl) (each_ok fun _ _ => ev2 F.MC)))

theorem reverseScaled_ok (b : Bool) : reverseScaled f b T = some () := by
  cases b with
  | false => rfl
  | true =>
    refine seq F.scan_ok (seq (each_ok fun _ _ => ev2 F.MC) (F.edges_ok fun i hi e he => seq ?_ (F.xyz_ok he)))
    have := F.hE
    rw [ev_iff]; simp; omega

theorem M0ints_ok : M0ints f P0 T = some () := by
  refine seq (ev2 F.NLM) (each_ok fun i hi => each_ok fun lm hlm => seq ?_ (each_ok fun p hp => ?_))
  · have := F.p0 lm hlm
    rw [narrow_iff]; omega
  · have := F.p0 lm hlm
    rw [ev_iff]; simp only [ok_add, ok_n, val_n, true_and]; omega

theorem M1ints_ok : M1ints f P1 T = some () := by
  have := F.p1
  refine each_ok fun i hi => seq ((narrow_iff _).2 (by omega)) (each_ok fun p hp => ?_)
  rw [ev_iff]; simp only [ok_add, ok_n, val_n, true_and]; omega

omit F in
theorem rows_ok {l B : ℕ} (hl : l < B) (hB : B * B < 2147483648) : rows l = some () := by
  have h1 : (l + 1) * (l + 1) ≤ B * B := Nat.mul_le_mul hl hl
  have h2 : (l + 1) * (l + 1) = l * l + 2 * l + 1 := by ring
  have h3 : l * (l + 2) = l * l + 2 * l := by ring
  refine seq (ev2 (by omega)) ?_
  have h4 : l + 2 < 2147483648 := by
    have : B ≤ B * B := Nat.le_mul_of_pos_left _ (by omega)
    rcases Nat.lt_or_ge l 2 with h | h
    · omega
    · omega
  rw [ev_iff]; simp only [ok_mul, ok_add, ok_n, val_n, val_mul, val_add, ok_1, ok_2, val_1, val_2, true_and, and_true]; omega

theorem H1ints_ok (hL : f.Lmax + 1 < 2147483648) : H1ints f T = some () := by
  have h0 := F.NLM
  have h1 : T.N * (f.Lmax + 1) ≤ T.N * LM f := Nat.mul_le_mul_left _ (Nat.le_mul_of_pos_right _ (by omega))
  refine seq ?_ (seq ?_ (each_ok fun i hi => each_ok fun l hl => rows_ok hl ?_))
  · rw [ev_iff]; simpa using hL
  · rw [ev_iff]; simp only [ok_mul, ok_add, ok_n, val_n, val_add, ok_1, val_1, true_and]; omega
  · exact lt_of_le_of_lt (Nat.le_mul_of_pos_left _ (by omega)) h0

theorem pathOff_ok (hf : FileOk f) {q k e : ℕ} (hq : q < numLelm f) (hk : k < C f) (he : e < T.E) :
    (do ev ((path f q : Ex) * (C f : Ex) + (k : Ex))
        ev ((e : Ex) * (M f : Ex) + (lm1 f q : Ex))) = some () := by
  have hm := couplings_mem hf (List.getElem_mem hq)
  have h1 : path f q < f.phil.length := by simp only [path, List.getElem?_eq_getElem hq, Option.getD_some]; exact hm.1
  have h2 : lm1 f q < M f := by simp only [lm1, List.getElem?_eq_getElem hq, Option.getD_some]; exact hm.2.1
  refine seq ?_ (F.off_ok he h2)
  have h0 := F.PC
  have h3 : (path f q + 1) * C f ≤ f.phil.length * C f := Nat.mul_le_mul_right _ h1
  rw [add_mul] at h3
  rw [ev_iff]; simp only [ok_mul, ok_add, ok_n, val_n, val_mul, true_and, and_true]; omega

omit F in
theorem _root_.Verif.IntIndex.Kok.FactsK.computePhi1_ok (F : FactsK f T P0 P1) (hf : FileOk f) : computePhi1 f T = some () :=
  seq F.scan_ok (seq (ev2 F.NQ) (seq (each_ok fun _ hq => F.edges_ok fun _ _ _ he => each_ok fun _ hk => F.pathOff_ok hf hq hk he)
    (each_ok fun _ _ => (narrow_iff _).2 (by simpa using F.cg))))

theorem reversePhi1_ok (hf : FileOk f) : reversePhi1 f T = some () := by
  refine seq (each_ok fun _ _ => (narrow_iff _).2 (by simpa using F.cg)) (seq F.scan_ok (F.edges_ok fun i hi e he =>
    seq (each_ok fun q hq => seq (each_ok fun k hk => F.pathOff_ok hf hq hk he) (seq (F.xyz_ok he) ?_)) (F.xyz_ok he)))
  have hm := couplings_mem hf (List.getElem_mem hq)
  have h2 : lm1 f q < M f := by simp only [lm1, List.getElem?_eq_getElem hq, Option.getD_some]; exact hm.2.1
  have hE := F.hE
  have h3 := F.grad_ok he h2
  have e1 : (3 * e + 1) * M f = 3 * e * M f + M f := by ring
  have e2 : (3 * e + 2) * M f = 3 * e * M f + 2 * M f := by ring
  refine seq (F.off_ok he h2) (seq ?_ (seq ?_ ?_)) <;> rw [ev_iff] <;> simp only [ok_mul, ok_add, ok_n, val_n, val_mul, val_add,
    ok_1, ok_2, ok_3, val_1, val_2, val_3, true_and, and_true] <;> omega

theorem countEta_ok (l : ℕ) : countEta f l = some () := by
  have hP := cut F.eC F.hC
  have hlen : f.phil.length ≤ numLme f := by
    have : ∀ l : List ℕ, l.length ≤ (l.map (fun l => 2 * l + 1)).sum := by
      intro l
      induction l with
      | nil => simp
      | cons a l ih => simp only [List.length_cons, List.map_cons, List.sum_cons]; omega
    exact this f.phil
  suffices h : ∀ m ≤ f.phil.length, ∃ n : ℕ × ℕ, loop m (fun p (n : ℕ × ℕ) => (do
      let ll : ℕ := nthN f.phil p
      let n ← (if ll < l then do
          ev ((n.1 : Ex) + (2 * (ll : Ex) + 1))
          pure (n.1 + (2 * ll + 1), n.2)
        else pure n : Option (ℕ × ℕ))
      if ll = l then do
          ev ((n.2 : Ex) + 1)
          pure (n.1, n.2 + 1)
        else pure n : Option (ℕ × ℕ))) (0, 0) = some n ∧ n.1 ≤ ((f.phil.take m).map (fun l => 2 * l + 1)).sum ∧ n.2 ≤ m by
    obtain ⟨n, hn, _⟩ := h _ le_rfl
    unfold countEta
    rw [hn]
    rfl
  intro m
  induction m with
  | zero => intro _; exact ⟨(0, 0), rfl, by simp, le_rfl⟩
  | succ m ih =>
    intro hm
    obtain ⟨n, hn, h1, h2⟩ := ih (by omega)
    have hs : ((f.phil.take (m + 1)).map (fun l => 2 * l + 1)).sum =
        ((f.phil.take m).map (fun l => 2 * l + 1)).sum + (2 * nthN f.phil m + 1) := by
      rw [List.take_add_one, List.map_append, List.sum_append]
      simp [nthN, List.getElem?_eq_getElem (show m < f.phil.length by omega)]
    have hle : ((f.phil.take (m + 1)).map (fun l => 2 * l + 1)).sum ≤ numLme f := by
      conv_rhs => rw [numLme, ← List.take_append_drop (m + 1) f.phil, List.map_append, List.sum_append]
      omega
    rw [loop_succ, hn, Option.bind_some]
    have e1 : ev ((n.1 : Ex) + (2 * ((nthN f.phil m : ℕ) : Ex) + 1)) = some () := by
      rw [ev_iff]; simp only [ok_mul, ok_add, ok_n, val_n, val_add, val_mul, ok_1, ok_2, val_1, val_2, true_and, and_true]; omega
    have e2 : ev ((n.2 : Ex) + 1) = some () := by
      rw [ev_iff]; simp only [ok_add, ok_n, val_n, ok_1, val_1, true_and]; omega
    by_cases a : nthN f.phil m < l
    · have b : nthN f.phil m ≠ l := by omega
      refine ⟨(n.1 + (2 * nthN f.phil m + 1), n.2), ?_, by dsimp only; omega, by dsimp only; omega⟩
      simp [a, b, e1]
    · by_cases b : nthN f.phil m = l
      · refine ⟨(n.1, n.2 + 1), ?_, by dsimp only; omega, by dsimp only; omega⟩
        simp [b, e2]
      · refine ⟨n, ?_, by omega, by omega⟩
        simp [a, b]

theorem A1ints_ok : A1ints f T = some () := by
  have hM := F.Mlt
  have h1 : f.lmax + 1 ≤ M f := Nat.le_mul_of_pos_right _ (by omega)
  have h2 : T.N * (f.lmax + 1) ≤ T.N * M f := Nat.mul_le_mul_left _ h1
  have h0 := F.NM
  refine seq ?_ (seq ?_ (each_ok fun i hi => each_ok fun l hl => seq (F.countEta_ok l) ?_))
  · rw [ev_iff]; simp only [ok_add, ok_n, val_n, ok_1, val_1, true_and]; omega
  · rw [ev_iff]; simp only [ok_mul, ok_add, ok_n, val_n, val_add, ok_1, val_1, true_and]; omega
  have h4 : f.phil.count l ≤ numLme f := by
    have : ∀ p : List ℕ, p.count l ≤ (p.map (fun l => 2 * l + 1)).sum := by
      intro p
      induction p with
      | nil => simp
      | cons a p ih =>
        rw [List.count_cons, List.map_cons, List.sum_cons]
        split <;> omega
    exact this f.phil
  have h5 : (l + 1) * (l + 1) ≤ M f := Nat.mul_le_mul hl hl
  have h6 : (l + 1) * (l + 1) = l * l + 2 * l + 1 := by ring
  refine seq ?_ (seq (ev2 (mul2 F.eC h4 le_rfl)) (seq (rows_ok hl hM) ?_)) <;> rw [ev_iff] <;>
    simp only [ok_mul, ok_add, ok_n, val_n, val_mul, val_add, ok_1, ok_2, val_1, val_2, true_and, and_true] <;> omega

omit F in
theorem _root_.Verif.IntIndex.Kok.FactsK.H2ints_ok (F : FactsK f T P0 P1) : H2ints f T = some () := by
  have h0 := F.CC
  have key : ∀ a < C f, ∀ b < C f, ev ((a : Ex) * (C f : Ex) + (b : Ex)) = some () := by
    intro a ha b hb
    have h : (a + 1) * C f ≤ C f * C f := Nat.mul_le_mul_right _ ha
    rw [add_mul] at h
    rw [ev_iff]; simp only [ok_mul, ok_add, ok_n, val_n, val_mul, true_and, and_true]; omega
  exact seq (ev2 F.NC) (each_ok fun _ _ => each_ok fun k hk => each_ok fun kp hkp => seq (key _ hkp _ hk) (key _ hk _ hkp))

end FactsA

/-- All intervals are `int`s. -/
def Cells.Fit (c : Cells) (n : ℕ) : Prop := ∀ e < n, c.r0 e < 2 ^ 31 ∧ c.r1 e < 2 ^ 31 ∧ c.a0 e < 2 ^ 31 ∧ c.a1 e < 2 ^ 31

theorem computeInts_ok {NH : ℕ} (hf : FileOk f) (hT : SysIn f T NH) (h : FileFitsK f P0 P1) (h' : SysFitsK f T.N T.E) {cell : Cells}
    (hc : cell.Fit T.E) : computeInts f P0 P1 T cell = some () := by
  have F := factsK hf hT h h'
  have hz : (if f.zbl.isSome then zbl T else some ()) = some () := by
    split
    · exact F.zbl_ok
    · rfl
  have hL' : f.Lmax + 1 < 2147483648 := lt_of_le_of_lt (Nat.le_mul_of_pos_right _ (by omega)) h.hidden
  exact seq hz (seq (F.computeR0_ok hT (fun e he => (hc e he).1)) (seq (F.evaluate_ok hT hf.vals1 (fun e he => (hc e he).2.1))
    (seq F.computeY_ok (seq F.computeA0_ok (seq (F.computeScaled_ok hT _ (fun h => (hf.A0s h).2.1) (fun e he => (hc e he).2.2.1))
    (seq F.M0ints_ok (seq (F.H1ints_ok hL') (seq (F.computePhi1_ok hf) (seq F.A1ints_ok
    (seq (F.computeScaled_ok hT _ (fun h => (hf.A1s h).2.1) (fun e he => (hc e he).2.2.2)) (seq F.M1ints_ok (seq F.H2ints_ok (seq F.H2ints_ok
    (seq F.M1ints_ok (seq (F.reverseScaled_ok _) (seq F.A1ints_ok (seq (F.reversePhi1_ok hf) (seq (F.H1ints_ok hL') (seq F.M0ints_ok
    (seq (F.reverseScaled_ok _) F.reverseA0_ok))))))))))))))))))))

/-- Without overflow the products fit. -/
theorem computeInts_imp {cell : Cells} (h : computeInts f P0 P1 T cell = some ()) : SysFitsK f T.N T.E := by
  have r3 := seq_right (seq_right (seq_right h))
  have hY := seq_left r3
  have r4 := seq_right r3
  have hA := seq_left r4
  have r6 := seq_right (seq_right r4)
  have hM := seq_left r6
  have r8 := seq_right (seq_right r6)
  have hP := seq_left r8
  have r12 := seq_right (seq_right (seq_right (seq_right r8)))
  have hH := seq_left r12
  have two : ∀ {a b : ℕ}, ev ((a : Ex) * (b : Ex)) = some () → a * b < 2 ^ 31 := by
    intro a b h
    rw [ev_iff] at h
    simpa using h
  exact
    { harm := by
        have := seq_left (seq_right (seq_right hY))
        rw [ev_iff] at this
        simp only [ok_mul, ok_n, val_n, val_mul, ok_3, val_3, true_and] at this
        exact this.2
      A0 := two (seq_left (seq_right hA))
      M0 := two (seq_left hM)
      phi1r := two (seq_left (seq_right hP))
      H2 := two (seq_left hH) }

end Verif.IntIndex.Kok
