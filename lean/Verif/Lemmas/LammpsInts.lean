import Verif.Model.LammpsInts
import Verif.Lemmas.IntIndex.Imp

/-! `int` expressions of the pair style: what has to fit. -/

namespace Verif.LammpsInts
open Verif.MACE Verif.Spec Verif.IntIndex

variable {f : File} {T : Sys}

theorem seq_iff {a b : Option Unit} : (do a; b) = some () ↔ a = some () ∧ b = some () := by
  cases a with
  | none => simp
  | some u => cases u; simp

theorem each_iff {n : ℕ} {g : ℕ → Option Unit} : each n g = some () ↔ ∀ i < n, g i = some () := by
  refine ⟨fun h i hi => ?_, each_ok⟩
  cases hg : g i with
  | none => rw [each_none hi hg] at h; exact absurd h (by simp)
  | some u => rfl

theorem edge_lt {i : ℕ} (hn : T.N ≤ T.nn.length) (hi : i < T.N) : nthN T.nn i ≤ T.E := by
  have h1 := pos_succ T (i := i) (by omega)
  have h2 := pos_le T (i := i + 1) (by omega)
  omega

theorem triple_ok {e : ℕ} (hE : 3 * T.E < 2147483648) (he : e < T.E) : triple e = some () := by
  refine seq ?_ (seq ?_ ?_) <;> rw [ev_iff] <;> simp <;> omega

theorem countNeigh_ok {i : ℕ} (hn : T.N ≤ T.nn.length) (hE : 3 * T.E < 2147483648) (hi : i < T.N) : countNeigh T i = some () := by
  have := edge_lt hn hi
  refine each_ok fun k hk => ?_
  rw [ev_iff]; simp; omega

theorem visit_ok (hn : T.N ≤ T.nn.length) (hE : 3 * T.E < 2147483648) : visit T = some () :=
  edges_ok hn (by omega) (fun _ _ => rfl) (fun _ _ _ he => triple_ok hE he) (fun _ _ => rfl)

theorem scatter_ok (hn : T.N ≤ T.nn.length) (hE : 3 * T.E < 2147483648) (v : Bool) : scatter T v = some () := by
  refine seq (visit_ok hn hE) ?_
  split
  · exact visit_ok hn hE
  · rfl

theorem build_ok (hn : T.N ≤ T.nn.length) (hE : 3 * T.E < 2147483648) : build T = some () := by
  refine seq (edges_ok hn (by omega) (fun _ _ => rfl) (fun _ _ _ _ => rfl) (fun _ _ => rfl)) (seq ?_
    (edges_ok hn (by omega) (fun _ hi => countNeigh_ok hn hE hi) (fun _ _ _ he => triple_ok hE he) (fun _ _ => rfl)))
  rw [ev_iff]; simpa using hE

/-- The evaluator computes three times the number of pairs itself. -/
theorem three_of_Y (h : computeY f T = some ()) : 3 * T.E < 2147483648 := by
  unfold IntIndex.computeY at h
  split at h
  · omega
  simp only [seq_iff, ev_iff] at h
  have := h.2.2.2.1
  simpa using this

theorem three_of_compute {cell : ℕ → ℕ} (h : computeInts f T cell = some ()) : 3 * T.E < 2147483648 := by
  unfold computeInts at h
  exact three_of_Y (f := f) (seq_iff.1 (seq_iff.1 h).2).1

theorem single_iff (hn : T.N ≤ T.nn.length) (cell : ℕ → ℕ) (v : Bool) :
    single f T cell v = some () ↔ computeInts f T cell = some () := by
  unfold single
  rw [seq_iff, seq_iff]
  refine ⟨fun h => h.2.1, fun h => ?_⟩
  have hE := three_of_compute h
  exact ⟨build_ok hn hE, h, scatter_ok hn hE v⟩

section
variable {NH : ℕ} {cell : ℕ → ℕ} (F : Facts f T) (hT : SysIn f T NH)
include F hT

theorem layer0_ok (hc : ∀ e < T.E, cell e + 1 < f.nodes0) : layer0 f T cell = some () := by
  have hE := F.hE
  exact seq F.computeY_ok (seq (computeR_ok hT.nn (by omega) F.E0 F.t0 (by rw [F.s0]; exact Nat.mul_pos (by omega) F.hC) hc)
    (seq (F.computeA0_ok hT) (seq (F.computeScaled_ok _ hT.nn) (seq (F.computeM0_ok hT) F.H1ints_ok))))

theorem layer1_ok (hf : FileOk f) (hH : NH * LM f * C f < 2147483648) (hc : ∀ e < T.E, cell e + 1 < f.nodes1) :
    layer1 f T cell = some () := by
  have hE := F.hE
  exact seq (computeR_ok hT.nn (by omega) F.E1 F.t1 (by rw [F.s1]; exact Nat.mul_pos hf.nP F.hC) hc)
    (seq (F.computePhi1_ok hf hT hH) (seq (seq (ev3 F.hC F.NMC) F.A1ints_ok) (seq (F.computeScaled_ok _ hT.nn)
    (seq (F.computeM1_ok hT) (seq F.computeH2_ok (seq F.computeReadouts_ok (seq F.reverseH2_ok (seq F.reverseM1_ok
    (seq (F.reverseScaled_ok _ hT.nn) (seq F.A1ints_ok (F.reversePhi1_ok hf hT hH)))))))))))

theorem back0_ok : back0 f T = some () :=
  seq F.H1ints_ok (seq F.reverseM0_ok (seq (F.reverseScaled_ok _ hT.nn) (F.reverseA0_ok hT)))

theorem zbl_ok' : (if f.zbl.isSome then zbl T else some ()) = some () := by
  split
  · exact F.zbl_ok hT.nn
  · rfl

end

/-! ### Messages -/

theorem feat_ok {n i k : ℕ} (hC : 1 ≤ C f) (hn : n * LM f * C f < 2147483648) (hi : i < n) (hk : k < LM f * C f) : feat f i k = some () := by
  have h1 : i * LM f * C f + k < n * LM f * C f := by
    have : (i + 1) * LM f * C f ≤ n * LM f * C f := by gcongr; omega
    rw [add_mul, add_mul, one_mul] at this
    omega
  unfold feat
  rw [ev_iff]
  simp only [ok_mul, ok_add, ok_n, val_n, val_mul, true_and, and_true]
  exact ⟨⟨cut (lt_of_le_of_lt (Nat.le_add_right _ _) (h1.trans hn)) hC, by omega⟩, by omega⟩

theorem featFrom_ok {n first i k : ℕ} (hC : 1 ≤ C f) (hLM : 1 ≤ LM f) (hn : n * LM f * C f < 2147483648) (hi : first + i < n)
    (hk : k < LM f * C f) : featFrom f first i k = some () := by
  have h1 : (first + i) * LM f * C f + k < n * LM f * C f := by
    have : (first + i + 1) * LM f * C f ≤ n * LM f * C f := by gcongr; omega
    rw [add_mul (first + i), add_mul _ _ (C f), one_mul] at this
    omega
  have h2 : first + i < 2147483648 := lt_trans hi (cut (cut hn hC) hLM)
  unfold featFrom
  rw [ev_iff]
  simp only [ok_mul, ok_add, ok_n, val_n, val_mul, val_add, true_and, and_true]
  exact ⟨⟨⟨h2, cut (lt_of_le_of_lt (Nat.le_add_right _ _) (h1.trans hn)) hC⟩, by omega⟩, by omega⟩

theorem feats_ok {g : ℕ → Option Unit} (h : LM f * C f < 2147483648) (hg : ∀ k < LM f * C f, g k = some ()) : feats f g = some () :=
  seq (ev2 h) (each_ok hg)

theorem returned_iff {n : ℕ} (hC : 1 ≤ C f) : returned f n = some () ↔ n * LM f * C f < 2147483648 := by
  refine ⟨fun h => ?_, fun h => ev3 hC h⟩
  unfold returned at h
  rw [ev_iff] at h
  simp only [ok_mul, ok_n, val_n, val_mul, true_and] at h
  exact h.2

theorem listed_ok {n : ℕ} {list : List ℕ} (hC : 1 ≤ C f) (hp : LM f * C f < 2147483648) (hn : n * LM f * C f < 2147483648)
    (hl : list.length * LM f * C f < 2147483648) (h : ∀ i ∈ list, i < n) : listed f list = some () := by
  refine each_ok fun ii hii => feats_ok hp fun k hk => seq (feat_ok hC hl hii hk) (feat_ok hC hn ?_ hk)
  simp only [nthN, List.getElem?_eq_getElem hii, Option.getD_some]
  exact h _ (List.getElem_mem _)

theorem consecutive_ok {n m first : ℕ} (hC : 1 ≤ C f) (hLM : 1 ≤ LM f) (hp : LM f * C f < 2147483648)
    (hn : n * LM f * C f < 2147483648) (h : first + m ≤ n) : consecutive f m first = some () :=
  each_ok fun i hi => feats_ok hp fun k hk => seq (featFrom_ok hC hLM hn (by omega) hk) (feat_ok hC hn (by omega) hk)

theorem getD_eq {α : Type} {l : List α} {s : ℕ} (d : α) (h : s < l.length) : l.getD s d = l[s] := by
  simp [List.getD_eq_getElem?_getD, List.getElem?_eq_getElem h]

theorem getD_mem {α : Type} {l : List α} {s : ℕ} (d : α) (h : s < l.length) : l.getD s d ∈ l := by
  rw [getD_eq d h]; exact List.getElem_mem _

section
variable {n : ℕ} {sent : List (List ℕ)} {got : List (ℕ × ℕ)} (hC : 1 ≤ C f) (hLM : 1 ≤ LM f) (hp : LM f * C f < 2147483648)
  (hn : n * LM f * C f < 2147483648) (hs : ∀ l ∈ sent, ∀ i ∈ l, i < n) (hg : ∀ m ∈ got, m.2 + m.1 ≤ n)
include hC hLM hp hn hs hg

theorem forward_iff : forward f sent got = some () ↔ ∀ l ∈ sent, l.length * LM f * C f < 2147483648 := by
  unfold forward
  rw [seq_iff, each_iff, each_iff]
  constructor
  · intro h l hl
    obtain ⟨s, hs', rfl⟩ := List.getElem_of_mem hl
    have := (seq_iff.1 (h.1 s hs')).2
    rw [getD_eq _ hs'] at this
    exact (returned_iff hC).1 this
  · intro h
    refine ⟨fun s hs' => ?_, fun s hs' => consecutive_ok hC hLM hp hn (hg _ (getD_mem _ hs'))⟩
    have hm := getD_mem [] hs'
    exact seq (listed_ok hC hp hn (h _ hm) (hs _ hm)) ((returned_iff hC).2 (h _ hm))

theorem reverse_ok (hl : ∀ l ∈ sent, l.length * LM f * C f < 2147483648) : reverse f sent got = some () := by
  refine seq (each_ok fun s hs' => ?_) (each_ok fun s hs' => ?_)
  · have hm := hg _ (getD_mem (0, 0) hs')
    refine seq (consecutive_ok hC hLM hp hn hm) ((returned_iff hC).2 (lt_of_le_of_lt ?_ hn))
    gcongr
    omega
  · have hm := getD_mem [] hs'
    exact listed_ok hC hp hn (hl _ hm) (hs _ hm)

end

theorem sortH1_iff {nlocal nghost n : ℕ} {ilist : List ℕ} (hC : 1 ≤ C f) (hLM : 1 ≤ LM f) (hp : LM f * C f < 2147483648)
    (hN : n * LM f * C f < 2147483648) (hi : ∀ ii < n, nthN ilist ii < nlocal + nghost) :
    sortH1 f nlocal nghost ilist n = some () ↔ (nlocal + nghost) * LM f * C f < 2147483648 := by
  unfold sortH1
  rw [seq_iff, ev_iff]
  simp only [ok_mul, ok_add, ok_n, val_n, val_mul, val_add, true_and, and_true]
  refine ⟨fun h => h.1.2, fun h => ⟨⟨⟨cut (cut h hC) hLM, cut h hC⟩, h⟩, ?_⟩⟩
  exact each_ok fun ii hii => feats_ok hp fun k hk => seq (feat_ok hC h (hi ii hii) hk) (feat_ok hC hN hii hk)

theorem mpi_iff (hf : FileOk f) (h : FileFits f) (h' : SysFits f T.N T.E) {nlocal nghost : ℕ} (hT : SysIn f T (nlocal + nghost))
    {cell : ℕ → ℕ} (hc : ∀ e < T.E, cell e + 1 < f.nodes0 ∧ cell e + 1 < f.nodes1) {ilist : List ℕ}
    (hi : ∀ ii < T.N, nthN ilist ii < nlocal + nghost) {sent : List (List ℕ)} {got : List (ℕ × ℕ)}
    (hs : ∀ l ∈ sent, ∀ i ∈ l, i < nlocal + nghost) (hg : ∀ m ∈ got, m.2 + m.1 ≤ nlocal + nghost) (v : Bool) :
    mpi f T cell nlocal nghost ilist sent got v = some () ↔
      (nlocal + nghost) * LM f * C f < 2147483648 ∧ ∀ l ∈ sent, l.length * LM f * C f < 2147483648 := by
  have F := facts hf h h'
  unfold mpi
  simp only [seq_iff]
  have e1 := sortH1_iff (ilist := ilist) F.hC F.hLM F.LMC F.NLMC hi
  constructor
  · rintro ⟨-, -, -, h4, h5, -⟩
    have hn := e1.1 h4
    exact ⟨hn, (forward_iff F.hC F.hLM F.LMC hn hs hg).1 h5⟩
  · rintro ⟨hn, hl⟩
    exact ⟨build_ok hT.nn F.hE, zbl_ok' F hT, layer0_ok F hT (fun e he => (hc e he).1), e1.2 hn,
      (forward_iff F.hC F.hLM F.LMC hn hs hg).2 hl, layer1_ok F hT hf hn (fun e he => (hc e he).2),
      reverse_ok F.hC F.hLM F.LMC hn hs hg hl, back0_ok F hT, scatter_ok hT.nn F.hE v⟩

/-! ### Ghost nodes -/

theorem pos_mono (T : Sys) {a b : ℕ} (h : a ≤ b) : pos T a ≤ pos T b := by
  have e : T.nn.take a = (T.nn.take b).take a := by rw [List.take_take, min_eq_left h]
  simp only [pos]
  rw [e]
  conv_rhs => rw [← List.take_append_drop a (T.nn.take b), List.sum_append]
  omega

theorem sumNeigh_ok {a n : ℕ} (hn : T.N ≤ T.nn.length) (hE : T.E < 2147483648) (h : a + n ≤ T.N) : sumNeigh T a n = some () := by
  have := loop_eq (n := n) (body := fun i (s : ℕ) => (do
    ev ((s : Ex) + (nthN T.nn (a + i) : Ex))
    pure (s + nthN T.nn (a + i)) : Option ℕ)) (fun i => pos T (a + i) - pos T a) (fun i hi => by
      have h1 := pos_succ T (i := a + i) (by omega)
      have h2 := pos_le T (i := a + i + 1) (by omega)
      have h3 := pos_mono T (show a ≤ a + i by omega)
      have h4 : ev (((pos T (a + i) - pos T a : ℕ) : Ex) + (nthN T.nn (a + i) : Ex)) = some () := by
        rw [ev_iff]
        simp only [ok_add, ok_n, val_n, true_and]
        omega
      simp only [h4]
      change some _ = some _
      congr 1
      change pos T (a + i) - pos T a + nthN T.nn (a + i) = pos T (a + i + 1) - pos T a
      omega)
  unfold sumNeigh
  simp only [add_zero, Nat.sub_self] at this
  rw [this]
  rfl

theorem loc_E {n : ℕ} (hn : n ≤ T.N) : (loc T n).E ≤ T.E := pos_le T hn

theorem loc_in {n : ℕ} (hT : SysOk f T) (hn : n ≤ T.N) : SysIn f (loc T n) T.N := by
  have hE := loc_E hn
  exact { types := hn.trans hT.types, typ := fun i hi => hT.typ i (lt_of_lt_of_le hi hn), nn := hn.trans hT.nn, idx := hE.trans hT.idx
          nbr := fun e he => hT.nbr e (lt_of_lt_of_le he hE), ntypes := hE.trans hT.ntypes
          nty := fun e he => hT.nty e (lt_of_lt_of_le he hE) }

theorem fits_mono {N N' E E' : ℕ} (h : SysFits f N E) (hN : N' ≤ N) (hE : E' ≤ E) : SysFits f N' E' where
  harm := lt_of_le_of_lt (by gcongr) h.harm
  rad0 := lt_of_le_of_lt (by gcongr) h.rad0
  rad1 := lt_of_le_of_lt (by gcongr) h.rad1
  grad0 := lt_of_le_of_lt (by gcongr) h.grad0
  grad1 := lt_of_le_of_lt (by gcongr) h.grad1
  phi1r := lt_of_le_of_lt (by gcongr) h.phi1r
  phi1 := lt_of_le_of_lt (by gcongr) h.phi1

/-- The second layer only needs the products for the local nodes and their pairs. -/
theorem noMpi_ok (hf : FileOk f) (h : FileFits f) (hT : SysOk f T) {n : ℕ} (hn : n ≤ T.N) (h' : SysFits f T.N T.E)
    {cell : ℕ → ℕ} (hc : ∀ e < T.E, cell e + 1 < f.nodes0 ∧ cell e + 1 < f.nodes1) (nlocal nghost : ℕ) (v : Bool) :
    noMpi f T n cell nlocal nghost v = some () ↔ nlocal + nghost < 2147483648 := by
  have F := facts hf h h'
  have hE := F.hE
  have hN : T.N < 2147483648 := cut F.NC F.hC
  have hl := loc_E hn
  have F' : Facts f (loc T n) := facts hf h (fits_mono h' hn hl)
  have hT' := loc_in hT hn
  unfold noMpi
  rw [seq_iff, ev_iff]
  simp only [ok_add, ok_n, val_n, true_and]
  refine and_iff_left (seq (each_ok fun i hi => ?_) (seq ?_ (seq (each_ok fun i hi => countNeigh_ok hT.nn hE hi)
    (seq (sumNeigh_ok hT.nn (by omega) (by omega)) (seq (sumNeigh_ok hT.nn (by omega) (by omega)) (seq ?_ (seq (visit_ok hT.nn hE)
    (seq (zbl_ok' F' hT') (seq (layer0_ok F hT (fun e he => (hc e he).1)) (seq (layer1_ok F' hT' hf F.NLMC
      (fun e he => (hc e (lt_of_lt_of_le he hl)).2)) (seq (back0_ok F hT) (scatter_ok hT.nn hE v))))))))))))
  all_goals
    rw [ev_iff]
    simp only [ok_mul, ok_add, ok_n, val_n, val_mul, val_add, ok_1, val_1, ok_3, val_3, true_and]
    omega

/-- The size of `M0_grad` counts the ghost nodes. -/
theorem noMpi_none {n nlocal nghost : ℕ} (cell : ℕ → ℕ) (v : Bool) (h : 2 ^ 31 ≤ T.N * C f * LM f * M f) :
    noMpi f T n cell nlocal nghost v = none := by
  cases e : noMpi f T n cell nlocal nghost v with
  | none => rfl
  | some u =>
    exfalso
    cases u
    unfold noMpi at e
    simp only [seq_iff] at e
    have h1 := e.2.2.2.2.2.2.2.2.2.1
    unfold layer0 IntIndex.computeM0 at h1
    simp only [seq_iff, ev_iff] at h1
    have h2 := h1.2.2.2.2.1.2.1
    simp only [ok_mul, ok_n, val_n, val_mul, true_and] at h2
    have := h2.2
    omega

end Verif.LammpsInts
