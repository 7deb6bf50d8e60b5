import Verif.Lemmas.IntIndex.Basic
import Verif.Spec.IntFits
import Mathlib.Tactic.Linarith

/-! No `int` expression overflows when the products fit. -/

namespace Verif.IntIndex
open Verif.MACE Verif.Spec

variable {f : File} {T : Sys}

/-- Facts used at every site, in the shape of the expressions. -/
structure Facts (f : File) (T : Sys) : Prop where
  hC : 1 ≤ C f
  hM : 1 ≤ M f
  hLM : 1 ≤ LM f
  nT : 1 ≤ f.nT
  EM3 : 3 * T.E * M f < 2147483648
  E0 : T.E * spl0 f < 2147483648
  E1 : T.E * spl1 f < 2147483648
  s0 : spl0 f = (f.lmax + 1) * C f
  s1 : spl1 f = f.phil.length * C f
  NG0 : T.N * LM f * M f * C f < 2147483648
  NG1 : T.N * C f * M f * C f < 2147483648
  NR : T.N * numLelm f * C f < 2147483648
  NP : T.N * numLme f * C f < 2147483648
  G0 : LM f * M f * C f < 2147483648
  G1 : C f * M f * C f < 2147483648
  pR : numLelm f * C f < 2147483648
  pP : numLme f * C f < 2147483648
  po : f.nT * LM f * C f < 2147483648
  mx : (f.Lmax + 1) * C f * C f < 2147483648
  cg : f.cg.length < 2147483648
  t0 : 4 * f.nodes0 * spl0 f < 2147483648
  t1 : 4 * f.nodes1 * spl1 f < 2147483648

theorem facts (hf : FileOk f) (h : FileFits f) (h' : SysFits f T.N T.E) : Facts f T := by
  have hp : 0 < (pairList f.nT).length := by
    rcases Nat.eq_zero_or_pos (pairList f.nT).length with h0 | h0
    · exfalso
      have := hf.nT
      have hm : (0, 0) ∈ pairList f.nT := by simp [pairList]; omega
      rw [List.length_eq_zero_iff.1 h0] at hm
      exact absurd hm (by simp)
    · exact h0
  have h0 : spl0 f = (f.lmax + 1) * C f := (hf.rows0 0 hp).1
  have h1 : spl1 f = f.phil.length * C f := (hf.rows1 0 hp).1
  exact { hC := hf.C, hM := Nat.mul_pos (by omega) (by omega), hLM := Nat.mul_pos (by omega) (by omega), nT := hf.nT
          EM3 := h'.harm, E0 := by rw [h0]; exact h'.rad0, E1 := by rw [h1]; exact h'.rad1, s0 := h0, s1 := h1
          NG0 := h'.grad0, NG1 := h'.grad1, NR := h'.phi1r, NP := h'.phi1, G0 := h.grad0, G1 := h.grad1, pR := h.phi1r, pP := h.phi1
          po := h.polys, mx := h.mix, cg := h.cg, t0 := by rw [h0]; exact h.table0, t1 := by rw [h1]; exact h.table1 }

theorem mul2 {a b A B X : ℕ} (h : A * B < X) (ha : a ≤ A) (hb : b ≤ B) : a * b < X := lt_of_le_of_lt (Nat.mul_le_mul ha hb) h

/-- `a*b` when a longer product fits. -/
theorem cut {a b X : ℕ} (h : a * b < X) (hb : 1 ≤ b) : a < X := lt_of_le_of_lt (Nat.le_mul_of_pos_right a hb) h

theorem ev2 {a b : ℕ} (h : a * b < 2147483648) : ev ((a : Ex) * (b : Ex)) = some () := by rw [ev_iff]; simpa using h

theorem ev3 {a b c : ℕ} (hc : 1 ≤ c) (h : a * b * c < 2147483648) : ev ((a : Ex) * (b : Ex) * (c : Ex)) = some () := by
  rw [ev_iff]; simpa using ⟨cut h hc, h⟩

theorem ev4 {a b c d : ℕ} (hc : 1 ≤ c) (hd : 1 ≤ d) (h : a * b * c * d < 2147483648) :
    ev ((a : Ex) * (b : Ex) * (c : Ex) * (d : Ex)) = some () := by
  rw [ev_iff]; simpa using ⟨⟨cut (cut h hd) hc, cut h hd⟩, h⟩

namespace Facts

variable (F : Facts f T)
include F

theorem hE : 3 * T.E < 2147483648 := cut F.EM3 F.hM

theorem EM : T.E * M f < 2147483648 := lt_of_le_of_lt (Nat.mul_le_mul_right _ (by omega)) F.EM3

theorem MC : M f * C f < 2147483648 :=
  lt_of_le_of_lt (by have := Nat.mul_le_mul_right (M f * C f) F.hLM; rw [one_mul, ← mul_assoc] at this; exact this) F.G0

theorem LMC : LM f * C f < 2147483648 :=
  lt_of_le_of_lt (by have := Nat.mul_le_mul_right (LM f * C f) F.nT; rw [one_mul, ← mul_assoc] at this; exact this) F.po

theorem NMC : T.N * M f * C f < 2147483648 := by
  refine lt_of_le_of_lt ?_ F.NG0
  have := Nat.mul_le_mul_left T.N F.hLM
  rw [mul_one] at this
  gcongr

theorem NLMC : T.N * LM f * C f < 2147483648 := by
  refine lt_of_le_of_lt ?_ F.NG0
  have := Nat.mul_le_mul_left (T.N * LM f) F.hM
  rw [mul_one] at this
  gcongr

theorem NC : T.N * C f < 2147483648 := by
  refine lt_of_le_of_lt ?_ F.NLMC
  have := Nat.mul_le_mul_left T.N F.hLM
  rw [mul_one] at this
  gcongr

theorem nTC : f.nT * C f < 2147483648 := by
  refine lt_of_le_of_lt ?_ F.po
  have := Nat.mul_le_mul_left f.nT F.hLM
  rw [mul_one] at this
  gcongr

theorem zbl_ok (hn : T.N ≤ T.nn.length) : zbl T = some () := by
  have := F.hE
  refine edges_ok hn (by omega) (fun _ _ => rfl) (fun i hi e he => ?_) (fun _ _ => rfl)
  refine seq ?_ (seq ?_ ?_) <;> rw [ev_iff] <;> simp <;> omega

end Facts

theorem computeR_ok {ns nodes : ℕ} {cell : ℕ → ℕ} (hn : T.N ≤ T.nn.length) (hE3 : T.E < 2147483648)
    (hE : T.E * ns < 2147483648) (ht : 4 * nodes * ns < 2147483648) (hns : 1 ≤ ns) (hc : ∀ e < T.E, cell e + 1 < nodes) :
    computeR ns cell T = some () := by
  refine edges_ok hn hE3 (fun _ _ => rfl) (fun i hi e he => ?_) (fun _ _ => rfl)
  have h1 : ev ((e : Ex) * (ns : Ex)) = some () := ev2 (mul2 hE (by omega) le_rfl)
  have h2 := cut ht hns
  have h3 := hc e he
  refine seq h1 (seq h1 (seq ?_ ?_)) <;> rw [ev_iff]
  · simp only [ok_mul, ok_4, ok_n, val_4, val_n, true_and, val_mul]
    exact ⟨by omega, mul2 ht (by omega) le_rfl⟩
  · simp only [ok_mul, ok_4, ok_n, val_4, val_n, true_and, val_mul, ok_add, val_add, ok_1, val_1, and_true]
    exact ⟨⟨by omega, by omega⟩, mul2 ht (by omega) le_rfl⟩

namespace Facts
variable (F : Facts f T)
include F

theorem computeY_ok : computeY f T = some () := by
  unfold computeY
  split
  · rfl
  rename_i h0
  have hE := F.hE
  have hM := F.EM
  have hM3 := F.EM3
  have h3 : ev (3 * (T.E : Ex)) = some () := by rw [ev_iff]; simpa using hE
  refine seq ((narrow_iff _).2 (by omega)) (seq (ev2 hM) (seq ?_ (seq h3 (seq (each_ok fun i hi => ?_)
    (seq ((narrow_iff _).2 (by simpa using hM)) (seq ((narrow_iff _).2 (by simpa using hM3)) (each_ok fun i hi => each_ok fun lm hlm => ?_)))))))
  · rw [ev_iff]; simpa using ⟨hE, hM3⟩
  · refine seq ?_ (seq ?_ ?_) <;> rw [ev_iff] <;> simp <;> omega
  · have hb : 3 * i * M f + 2 * M f + lm < 2147483648 := by
      refine lt_of_le_of_lt ?_ hM3
      have : (3 * i + 3) * M f ≤ 3 * T.E * M f := Nat.mul_le_mul_right _ (by omega)
      rw [add_mul] at this
      omega
    refine seq ?_ (seq ?_ ?_) <;> rw [ev_iff] <;> simp only [ok_mul, ok_add, ok_n, val_n, val_mul, val_add, ok_0, ok_1, ok_2, ok_3,
      val_0, val_1, val_2, val_3, true_and, and_true] <;> omega

theorem sq_lt {l : ℕ} (hl : l < f.lmax + 1) : l * l < M f := Nat.mul_lt_mul'' hl hl

theorem sq_two {l : ℕ} (hl : l < f.lmax + 1) : l * l + (2 * l + 1) ≤ M f := by
  have := Nat.mul_le_mul (show l + 1 ≤ f.lmax + 1 from hl) (show l + 1 ≤ f.lmax + 1 from hl)
  have h2 : (l + 1) * (l + 1) = l * l + (2 * l + 1) := by ring
  rw [h2] at this
  exact this

theorem Mlt : M f < 2147483648 := cut F.MC F.hC

theorem lmOff_ok {l m' : ℕ} (hl : l < f.lmax + 1) (hm : m' < 2 * l + 1) : lmOff f l m' = some () := by
  have h1 := F.sq_two hl
  have h2 := F.Mlt
  refine seq ?_ (ev2 (mul2 F.MC (by omega) le_rfl))
  rw [ev_iff]
  simp only [ok_add, ok_mul, ok_n, val_n, val_mul, true_and]
  omega

theorem row_ok {i l : ℕ} (hi : i < T.N) (hl : l < f.lmax + 1) :
    (do ev ((l : Ex) * (l : Ex) * (C f : Ex))
        ev (((i : Ex) * (M f : Ex) + (l : Ex) * (l : Ex)) * (C f : Ex))
        ev (2 * (l : Ex) + 1)) = some () := by
  have h1 := F.sq_two hl
  have h2 := F.Mlt
  have h3 : i * M f + l * l ≤ T.N * M f := by
    have : (i + 1) * M f ≤ T.N * M f := Nat.mul_le_mul_right _ hi
    rw [add_mul] at this
    omega
  have h4 := cut F.NMC F.hC
  refine seq (ev3 F.hC (mul2 F.MC (by omega) le_rfl)) (seq ?_ ?_) <;> rw [ev_iff] <;>
    simp only [ok_mul, ok_add, ok_n, val_n, val_mul, val_add, ok_1, ok_2, val_1, val_2, true_and, and_true]
  · exact ⟨⟨by omega, by omega, by omega⟩, mul2 F.NMC h3 le_rfl⟩
  · omega

theorem radOff_ok {e l : ℕ} (he : e < T.E) (hl : l < f.lmax + 1) :
    ev ((e : Ex) * ((f.lmax : Ex) + 1) * (C f : Ex)) = some () ∧ ev ((l : Ex) * (C f : Ex)) = some () := by
  have h0 := F.E0
  rw [F.s0] at h0
  have h1 : f.lmax + 1 ≤ M f := Nat.le_mul_of_pos_right _ (by omega)
  have h2 := F.Mlt
  constructor
  · rw [ev_iff]
    simp only [ok_mul, ok_add, ok_n, val_n, val_mul, val_add, ok_1, val_1, true_and, and_true]
    rw [← mul_assoc] at h0
    exact ⟨⟨by omega, mul2 (cut h0 F.hC) (by omega) le_rfl⟩, mul2 h0 (Nat.mul_le_mul_right _ (by omega)) le_rfl⟩
  · exact ev2 (mul2 F.MC (by omega) le_rfl)

theorem computeA0_ok {NH : ℕ} (hT : SysIn f T NH) : computeA0 f T = some () := by
  have hE := F.hE
  refine seq (ev3 F.hC F.NMC) (edges_ok hT.nn (by omega) (fun i hi => ev2 F.MC) (fun i hi e he => ?_)
    (fun i hi => each_ok fun l hl => F.row_ok hi hl))
  refine seq (ev2 (mul2 F.EM (by omega) le_rfl)) (seq (ev2 (mul2 F.nTC (hT.nty e he).le le_rfl)) (each_ok fun l hl => ?_))
  exact seq (F.radOff_ok he hl).1 (seq (F.radOff_ok he hl).2 (each_ok fun m hm => F.lmOff_ok hl hm))

theorem ev3M {e : ℕ} (he : e < T.E) : ev ((e : Ex) * 3 * (M f : Ex)) = some () := by
  have h3 := F.EM3
  have hE := F.hE
  rw [ev_iff]
  simp only [ok_mul, ok_n, val_n, val_mul, ok_3, val_3, true_and]
  exact ⟨by omega, mul2 h3 (by omega) le_rfl⟩

theorem M3 {e : ℕ} (he : e < T.E) : 3 * M f < 2147483648 := mul2 F.EM3 (by omega) le_rfl

theorem reverseA0_ok {NH : ℕ} (hT : SysIn f T NH) : reverseA0 f T = some () := by
  have hE := F.hE
  refine edges_ok hT.nn (by omega) (fun i hi => seq (ev2 F.MC) (each_ok fun l hl => F.row_ok hi hl)) (fun i hi e he => ?_) (fun _ _ => rfl)
  have h3 : ev ((e : Ex) * 3) = some () := by rw [ev_iff]; simp; omega
  refine seq h3 (seq (ev2 (mul2 F.EM (by omega) le_rfl)) (seq (F.ev3M he) (seq (ev2 (mul2 F.nTC (hT.nty e he).le le_rfl))
    (seq h3 (each_ok fun l hl => seq (F.radOff_ok he hl).1 (seq (F.radOff_ok he hl).2 (each_ok fun m hm =>
      seq (F.lmOff_ok hl hm) (seq ?_ ?_))))))))
  all_goals
    have h1 := F.sq_two hl
    have h2 := F.M3 he
    rw [ev_iff]
    simp only [ok_mul, ok_add, ok_n, val_n, val_mul, ok_2, val_2, true_and, and_true]
    omega

theorem computeScaled_ok (b : Bool) (hn : T.N ≤ T.nn.length) : computeScaled f b T = some () := by
  have hE := F.hE
  unfold computeScaled
  split
  · exact edges_ok hn (by omega) (fun _ _ => rfl) (fun _ _ _ _ => rfl) (fun i hi =>
      seq (ev3 F.hC (mul2 F.NMC (Nat.mul_le_mul_right _ hi.le) le_rfl)) (ev2 F.MC))
  · rfl

theorem reverseScaled_ok (b : Bool) (hn : T.N ≤ T.nn.length) : reverseScaled f b T = some () := by
  have hE := F.hE
  unfold reverseScaled
  split
  · have := loop_eq (n := T.N) (body := fun i ij => (do
        ev ((i : Ex) * (M f : Ex) * (C f : Ex))
        ev ((i : Ex) * (M f : Ex) * (C f : Ex))
        let ij ← inner (nthN T.nn i) (fun _ => some ()) ij
        ev ((M f : Ex) * (C f : Ex))
        let ij ← inner (nthN T.nn i) (fun ij => ev ((ij : Ex) * 3)) (ij - nthN T.nn i)
        pure ij : Option ℕ)) (fun i => pos T i) (fun i hi => by
      have h1 := pos_succ T (i := i) (by omega)
      have h2 := pos_le T (i := i + 1) (by omega)
      have h3 : inner (nthN T.nn i) (fun _ => some ()) (pos T i) = some (pos T (i + 1)) := by
        rw [h1]
        exact inner_ok (fun k hk => rfl) (by omega)
      have h4 : inner (nthN T.nn i) (fun ij => ev ((ij : Ex) * 3)) (pos T i) = some (pos T (i + 1)) := by
        rw [h1]
        exact inner_ok (fun k hk => by rw [ev_iff]; simp; omega) (by omega)
      have h5 : ev ((i : Ex) * (M f : Ex) * (C f : Ex)) = some () :=
        ev3 F.hC (mul2 F.NMC (Nat.mul_le_mul_right _ hi.le) le_rfl)
      have h6 : pos T (i + 1) - nthN T.nn i = pos T i := by omega
      simp only [h5, h3, ev2 F.MC]
      change (inner (nthN T.nn i) (fun ij => ev ((ij : Ex) * 3)) (pos T (i + 1) - nthN T.nn i)) = _
      rw [h6, h4])
    rw [show (0 : ℕ) = pos T 0 from by simp [pos], this]
    rfl
  · rfl

theorem computeM0_ok {NH : ℕ} (hT : SysIn f T NH) : computeM0 f T = some () := by
  have h4 : T.N * C f * LM f * M f < 2147483648 := by have := F.NG0; rwa [show T.N * LM f * M f * C f = T.N * C f * LM f * M f by ring] at this
  have h5 : T.N * LM f * C f * M f < 2147483648 := by have := F.NG0; rwa [show T.N * LM f * M f * C f = T.N * LM f * C f * M f by ring] at this
  refine seq (ev3 F.hC F.NLMC) (seq (ev4 F.hLM F.hM h4) (each_ok fun i hi => ?_))
  refine seq (ev3 F.hC (mul2 F.NMC (Nat.mul_le_mul_right _ hi.le) le_rfl)) (seq (ev3 F.hC (mul2 F.NLMC (Nat.mul_le_mul_right _ hi.le) le_rfl))
    (seq (ev4 F.hC F.hM (mul2 h5 (by gcongr) le_rfl)) (each_ok fun lm hlm => each_ok fun k hk => ?_)))
  have h6 : lm * C f + k < LM f * C f := by
    have : (lm + 1) * C f ≤ LM f * C f := Nat.mul_le_mul_right _ hlm
    rw [add_mul] at this
    omega
  have h7 := F.LMC
  have h8 : nthN T.types i * LM f * C f + (lm * C f + k) < f.nT * LM f * C f := by
    have : (nthN T.types i + 1) * LM f * C f ≤ f.nT * LM f * C f := by
      have := hT.typ i hi
      gcongr
      omega
    rw [add_mul, add_mul, one_mul] at this
    omega
  have h9 := F.po
  refine seq ?_ (seq (ev3 F.hC (mul2 F.G0 (Nat.mul_le_mul_right _ hlm.le) le_rfl)) ?_) <;> rw [ev_iff] <;>
    simp only [ok_mul, ok_add, ok_n, val_n, val_mul, ok_1, val_1, true_and, and_true]
  · exact ⟨⟨cut (lt_of_le_of_lt (Nat.le_add_right _ _) (h8.trans h9)) F.hC, by omega⟩, by omega⟩
  · omega

theorem reverseM0_ok : reverseM0 f T = some () := by
  have h1 := F.NG0
  refine each_ok fun i hi => ?_
  refine seq (ev3 F.hC (mul2 F.NMC (Nat.mul_le_mul_right _ hi.le) le_rfl)) (seq (ev3 F.hC (mul2 F.NLMC (Nat.mul_le_mul_right _ hi.le) le_rfl))
    (seq (ev4 F.hM F.hC (mul2 h1 (by gcongr) le_rfl)) (each_ok fun lm hlm => seq (ev2 (mul2 F.MC hlm.le le_rfl)) (each_ok fun lmp hlmp => ?_))))
  exact seq (ev2 (mul2 F.LMC hlmp.le le_rfl)) (seq (ev3 F.hC (mul2 F.G0 (Nat.mul_le_mul_right _ hlmp.le) le_rfl)) (ev2 (mul2 F.MC hlm.le le_rfl)))

theorem sq_two' {l : ℕ} (hl : l < f.Lmax + 1) : l * l + (2 * l + 1) ≤ LM f := by
  have := Nat.mul_le_mul (show l + 1 ≤ f.Lmax + 1 from hl) (show l + 1 ≤ f.Lmax + 1 from hl)
  have h2 : (l + 1) * (l + 1) = l * l + (2 * l + 1) := by ring
  rw [h2] at this
  exact this

theorem LMlt : LM f < 2147483648 := cut F.LMC F.hC

theorem H1ints_ok : H1ints f T = some () := by
  refine each_ok fun i hi => each_ok fun l hl => ?_
  have h1 := F.sq_two' hl
  have h2 := F.LMlt
  have h3 : i * LM f + l * l ≤ T.N * LM f := by
    have : (i + 1) * LM f ≤ T.N * LM f := Nat.mul_le_mul_right _ hi
    rw [add_mul] at this
    omega
  have h4 := cut F.NLMC F.hC
  refine seq ?_ (seq (ev3 F.hC (mul2 F.mx (Nat.mul_le_mul_right _ hl.le) le_rfl)) ?_) <;> rw [ev_iff] <;>
    simp only [ok_mul, ok_add, ok_n, val_n, val_mul, val_add, ok_1, ok_2, val_1, val_2, true_and, and_true]
  · exact ⟨⟨by omega, by omega, by omega⟩, mul2 F.NLMC h3 le_rfl⟩
  · omega

theorem computeM1_ok {NH : ℕ} (hT : SysIn f T NH) : computeM1 f T = some () := by
  refine seq (ev2 F.NC) (seq (ev4 F.hM F.hC F.NG1) (each_ok fun i hi => ?_))
  have h1 : T.N * C f * M f < 2147483648 := cut F.NG1 F.hC
  refine seq (ev3 F.hC (mul2 F.NMC (Nat.mul_le_mul_right _ hi.le) le_rfl)) (seq (ev2 (mul2 F.NC hi.le le_rfl))
    (seq (ev3 F.hM (mul2 h1 (Nat.mul_le_mul_right _ hi.le) le_rfl)) (each_ok fun k hk => ?_)))
  have h2 : nthN T.types i * C f + k < f.nT * C f := by
    have : (nthN T.types i + 1) * C f ≤ f.nT * C f := Nat.mul_le_mul_right _ (hT.typ i hi)
    rw [add_mul] at this
    omega
  have h3 := F.nTC
  rw [ev_iff]
  simp only [ok_mul, ok_add, ok_n, val_n, val_mul, true_and]
  omega

theorem reverseM1_ok : reverseM1 f T = some () := by
  refine each_ok fun i hi => seq (ev2 (mul2 F.NC hi.le le_rfl)) (each_ok fun lm hlm => ?_)
  have h3 : i * M f + lm ≤ T.N * M f := by
    have : (i + 1) * M f ≤ T.N * M f := Nat.mul_le_mul_right _ hi
    rw [add_mul] at this
    omega
  have h4 := cut F.NMC F.hC
  rw [ev_iff]
  simp only [ok_mul, ok_add, ok_n, val_n, val_mul, val_add, true_and, and_true]
  exact ⟨⟨by omega, by omega⟩, mul2 F.NMC h3 le_rfl⟩

theorem reverseH2_ok : reverseH2 f T = some () :=
  each_ok fun _ hi => seq (ev2 (mul2 F.NC hi.le le_rfl)) (ev3 F.hC (mul2 F.NLMC (Nat.mul_le_mul_right _ hi.le) le_rfl))

theorem computeH2_ok : computeH2 f T = some () := seq (ev2 F.NC) F.reverseH2_ok

theorem computeReadouts_ok : computeReadouts f T = some () := by
  refine each_ok fun i hi => seq (each_ok fun k hk => ?_) (seq (ev2 (mul2 F.NC hi.le le_rfl)) (seq ?_ (each_ok fun k hk => ?_)))
  · have h1 : i * LM f * C f + k < T.N * LM f * C f := by
      have : (i + 1) * LM f * C f ≤ T.N * LM f * C f := by gcongr; omega
      rw [add_mul, add_mul, one_mul] at this
      have := Nat.mul_le_mul_right (C f) F.hLM
      omega
    have h2 := F.NLMC
    rw [ev_iff]
    simp only [ok_mul, ok_add, ok_n, val_n, val_mul, true_and, and_true]
    exact ⟨⟨cut (lt_of_le_of_lt (Nat.le_add_right _ _) (h1.trans h2)) F.hC, by omega⟩, by omega⟩
  · have := F.NC
    rw [ev_iff]
    simp only [ok_mul, ok_add, ok_n, val_n, val_add, ok_1, val_1, true_and, and_true]
    exact ⟨by have := cut F.NC F.hC; omega, mul2 F.NC hi le_rfl⟩
  · have h1 : i * C f + k < T.N * C f := by
      have : (i + 1) * C f ≤ T.N * C f := Nat.mul_le_mul_right _ hi
      rw [add_mul] at this
      omega
    have h2 := F.NC
    rw [ev_iff]
    simp only [ok_mul, ok_add, ok_n, val_n, val_mul, true_and]
    omega

end Facts

end Verif.IntIndex
