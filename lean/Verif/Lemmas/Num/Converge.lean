import Verif.Lemmas.Num.Run
import Verif.Spec.NumAccuracy
import Verif.Spec.Num
import Mathlib.Analysis.SpecialFunctions.Pow.Continuity
import Mathlib.Analysis.SpecialFunctions.Exp
import Mathlib.Analysis.SpecificLimits.Basic
import Mathlib.Topology.Algebra.GroupWithZero

/-!
# Runs in arithmetics of increasing accuracy
-/

namespace Verif.Num
open Filter Topology Verif.NumSpec Verif.Spline Verif.MACE Verif.Spec

/-- The family converges. -/
def VL (a : ℕ → ℝ) (x : ℝ) : Prop := Tendsto a atTop (𝓝 x)

def DN (x : ℝ) : Prop := x ≠ 0

variable {A : ℕ → Arith ℝ} {c : ℕ → ℝ} {δ : ℕ → ℝ}

/-- Arithmetics whose accuracy tends to zero. -/
structure Fam (A : ℕ → Arith ℝ) (c : ℕ → ℝ) (δ : ℕ → ℝ) : Prop where
  pos : ∀ n, 0 < δ n
  lim : Tendsto δ atTop (𝓝 0)
  acc : ∀ n, Accurate (A n) c (δ n)

theorem Fam.big (h : Fam A c δ) {u : ℕ → ℝ} {x : ℝ} (hu : Tendsto u atTop (𝓝 x)) : ∀ᶠ n in atTop, u n ≤ 1 / δ n := by
  have h1 : Tendsto (fun n => u n * δ n) atTop (𝓝 (x * 0)) := hu.mul h.lim
  rw [mul_zero] at h1
  filter_upwards [h1.eventually (gt_mem_nhds one_pos)] with n hn
  rw [le_div_iff₀ (h.pos n)]
  exact hn.le

theorem Fam.close (h : Fam A c δ) {w u : ℕ → ℝ} {x : ℝ} (hw : ∀ᶠ n in atTop, Close (δ n) (w n) (u n)) (hu : VL u x) : VL w x := by
  have hu : Tendsto u atTop (𝓝 x) := hu
  have h1 : Tendsto (fun n => δ n * (|u n| + 1)) atTop (𝓝 (0 * (|x| + 1))) := h.lim.mul (hu.abs.add_const 1)
  rw [zero_mul] at h1
  have h2 : Tendsto (fun n => w n - u n) atTop (𝓝 0) := by
    refine squeeze_zero_norm' ?_ h1
    filter_upwards [hw, h.big hu.abs] with n h3 h4
    exact h3 h4
  have := h2.add hu
  simp only [sub_add_cancel, zero_add] at this
  exact this

theorem Fam.close' (h : Fam A c δ) {w u : ℕ → ℝ} {x : ℝ} (hw : ∀ n, Close (δ n) (w n) (u n)) (hu : VL u x) : VL w x :=
  h.close (Eventually.of_forall hw) hu

theorem vl_sum {ps : ℕ → List (ℝ × ℝ)} {qs : List (ℝ × ℝ)} (hp : RL (RP VL VL) ps qs) (f : ℝ × ℝ → ℝ)
    (hf : ∀ a b x y, VL a x → VL b y → VL (fun n => f (a n, b n)) (f (x, y))) :
    VL (fun n => ((ps n).map f).sum) (qs.map f).sum := by
  induction qs generalizing ps with
  | nil => rw [hp.nil_inv]; exact tendsto_const_nhds
  | cons q qs ih =>
    obtain ⟨g, gs, rfl, ⟨a, b, rfl, h1, h2⟩, hgs⟩ := hp.cons_inv
    simp only [List.map_cons, List.sum_cons]
    exact Tendsto.add (hf a b _ _ h1 h2) (ih hgs)

theorem vl_size {z : ℕ → ℝ} {z' : ℝ} (hz : VL z z') {ps : ℕ → List (ℝ × ℝ)} {qs : List (ℝ × ℝ)} (hp : RL (RP VL VL) ps qs) :
    VL (fun n => dotSize (z n) (ps n)) (dotSize z' qs) :=
  Tendsto.add (Tendsto.abs hz) (vl_sum hp (fun p => |p.1 * p.2|) fun a b x y ha hb => Tendsto.abs (Tendsto.mul ha hb))

theorem Fam.dotLim (h : Fam A c δ) {w u v : ℕ → ℝ} {x y : ℝ} {k : ℕ}
    (hw : ∀ n, c k * (1 + v n) ≤ 1 / δ n → |w n - u n| ≤ δ n * (c k * (1 + v n))) (hu : VL u x) (hv : VL v y) : VL w x := by
  have hv1 : Tendsto (fun n => c k * (1 + v n)) atTop (𝓝 (c k * (1 + y))) := (Tendsto.const_add 1 hv).const_mul (c k)
  have h1 := h.lim.mul hv1
  rw [zero_mul] at h1
  have h2 : Tendsto (fun n => w n - u n) atTop (𝓝 0) := by
    refine squeeze_zero_norm' ?_ h1
    filter_upwards [h.big hv1] with n h3
    exact hw n h3
  have := h2.add hu
  simp only [sub_add_cancel, zero_add] at this
  exact this

theorem Fam.sound (h : Fam A c δ) : Sound A VL DN where
  lit q := h.close' (fun n => (h.acc n).lit q) tendsto_const_nhds
  ofInt z := h.close' (fun n => (h.acc n).ofInt z) tendsto_const_nhds
  add ha hb := h.close' (fun n => (h.acc n).add _ _) (Tendsto.add ha hb)
  sub ha hb := h.close' (fun n => (h.acc n).sub _ _) (Tendsto.sub ha hb)
  mul ha hb := h.close' (fun n => (h.acc n).mul _ _) (Tendsto.mul ha hb)
  neg ha := h.close' (fun n => (h.acc n).neg _) (Tendsto.neg ha)
  div {a b x y} ha hb hy := h.close (by
    filter_upwards [Tendsto.eventually_ne hb hy] with n hn
    exact (h.acc n).div (a n) (b n) hn) (show VL (fun n => a n / b n) (x / y) from Tendsto.div ha hb hy)
  dot t {ps qs} hp := h.dotLim (k := qs.length) (fun n hn => by
    have := (h.acc n).dot t (ps n)
    rw [hp.length] at this
    exact this hn) (vl_sum hp (fun p => p.1 * p.2) fun a b x y ha hb => Tendsto.mul ha hb) (vl_size (z := fun _ => 0) tendsto_const_nhds hp)
  dotAcc t {a x ps qs} ha hp := h.dotLim (k := qs.length) (fun n hn => by
    have := (h.acc n).dotAcc t (a n) (ps n)
    rw [hp.length] at this
    exact this hn) (Tendsto.add ha (vl_sum hp (fun p => p.1 * p.2) fun a b x y ha hb => Tendsto.mul ha hb)) (vl_size ha hp)

theorem Fam.exp (h : Fam A c δ) {a : ℕ → ℝ} {x : ℝ} (ha : VL a x) : VL (fun n => (A n).exp (a n)) (Real.exp x) :=
  h.close' (fun n => (h.acc n).exp _) ((Real.continuous_exp.tendsto x).comp ha)

theorem Fam.rexp (h : Fam A c δ) : RExp A VL DN Real.exp where
  exp _ _ ha := h.exp ha
  sig x := by unfold DN; positivity

theorem mix_vl : Mix VL := by
  intro p _ a b x ha hb
  exact ha.if' hb

/-! ## Tables -/

theorem Fam.near (h : Fam A c δ) {r s : ℕ → ℝ} {r' h' : ℝ} (hr : VL r r') (hs : VL s h') (hh : 0 < h') {i : ℕ} (h1 : h' * i ≤ r')
    (h2 : r' < h' * (i + 1)) : ∀ᶠ m in atTop, IdxNear h' r' i ((A m).trunc ((A m).div (r m) (s m))) := by
  have hq : VL (fun m => (A m).div (r m) (s m)) (r' / h') := h.sound.div hr hs hh.ne'
  have hlt : r' / h' < i + 1 := by rw [div_lt_iff₀ hh]; linarith [mul_comm h' ((i : ℝ) + 1)]
  have hge : (i : ℝ) ≤ r' / h' := by rw [le_div_iff₀ hh]; linarith [mul_comm h' (i : ℝ)]
  have tr : ∀ (x : ℝ) (k : ℕ), (k : ℝ) ≤ x → x < k + 1 → truncInt x = k := fun x k e1 e2 => by
    have := truncInt_div (r := x) one_pos k (by simpa using e1) (by simpa using e2)
    simpa using this
  have up := hq.eventually (gt_mem_nhds hlt)
  rcases hge.lt_or_eq with hlt' | heq
  · filter_upwards [up, hq.eventually (lt_mem_nhds hlt')] with m e1 e2
    left
    rw [(h.acc m).trunc]
    exact tr _ _ e2.le e1
  · have hk : r' = h' * i := by rw [heq]; field_simp
    filter_upwards [up, hq.eventually (lt_mem_nhds (show (i : ℝ) - 1 < r' / h' by linarith))] with m e1 e2
    rw [IdxNear, (h.acc m).trunc]
    rcases le_or_gt (i : ℝ) ((A m).div (r m) (s m)) with hle | hgt
    · exact .inl (tr _ _ hle e1)
    · rcases Nat.eq_zero_or_pos i with rfl | hi
      · left
        unfold truncInt
        simp only [Nat.cast_zero] at hgt e2 ⊢
        rw [if_neg (by linarith)]
        rw [Int.ceil_eq_iff]
        push_cast
        constructor <;> linarith
      · right
        refine ⟨hk, hi, tr _ _ ?_ ?_⟩
        · rw [Nat.cast_sub hi]; push_cast; linarith
        · rw [Nat.cast_sub hi]; push_cast; linarith

theorem exists_idx {h r : ℝ} (hh : 0 < h) (h0 : 0 ≤ r) {m : ℕ} (hr : r < h * m) : ∃ i : ℕ, i < m ∧ h * i ≤ r ∧ r < h * (i + 1) := by
  refine ⟨⌊r / h⌋₊, ?_, ?_, ?_⟩
  · rw [Nat.floor_lt (by positivity), div_lt_iff₀ hh]; linarith [mul_comm h (m : ℝ)]
  · have := Nat.floor_le (show 0 ≤ r / h by positivity)
    rw [le_div_iff₀ hh] at this
    linarith [mul_comm h (⌊r / h⌋₊ : ℝ)]
  · have := Nat.lt_floor_add_one (r / h)
    rw [div_lt_iff₀ hh] at this
    linarith [mul_comm h ((⌊r / h⌋₊ : ℝ) + 1)]

variable {φ : ℕ → ℝ → ℝ} {f : File} {T : Sys} {X : ℕ → ℕ → ℝ} {g : ℕ → Graph ℝ}

theorem Fam.tab (h : Fam A c δ) (hf : FileOk f) (hX : Inside f T X)
    (hr : ∀ e < T.E, ∀ r : ℕ → ℝ, (∀ n, (g n).r[e]? = some (r n)) → VL r (len (X e))) : TabRel atTop A VL φ f T X g := by
  refine ⟨?_, ?_, ?_⟩
  · intro e he r h1 S n vals ders hn H hS s s' hs' hs base st st' hst
    have hin : len (X e) < f.splH * (n - 1 : ℕ) := by
      rcases hn with rfl | rfl
      · exact (hX e he).2.1
      · exact (hX e he).2.2.1
    obtain ⟨i, hi, i1, i2⟩ := exists_idx hf.h (hX e he).1.le hin
    have hn0 : 0 < n := by omega
    obtain ⟨s1, e1, e2, -⟩ := SplineSet.mk?_spec f.splH H hS hn0
    rw [hs'] at e1
    cases e1
    have hhh := hs.h
    rw [e2] at hhh
    exact setDerivs_near h.sound mix_vl hf.h H hS hs' hs (hr e he r h1) (by omega) i1 i2 (h.near (hr e he r h1) hhh hf.h i1 i2) hst
  all_goals
    intro hsc e he r h1 w hw d hl s s' hs' hs
    first
    | have hin := (hX e he).2.2.2.1 hsc w hw
      have hh := (hf.A0s hsc).1
      obtain ⟨i, hi, i1, i2⟩ := exists_idx hh (hX e he).1.le hin
      obtain ⟨s1, e1, e2, -⟩ := Spline.mk?_spec f.A0h w d (by omega) hl
      rw [hs'] at e1
      cases e1
      have hhh := hs.h
      rw [e2] at hhh
      exact spline_near h.sound mix_vl hh hl hs' hs (hr e he r h1) (by omega) i1 i2 (h.near (hr e he r h1) hhh hh i1 i2)
    | have hin := (hX e he).2.2.2.2 hsc w hw
      have hh := (hf.A1s hsc).1
      obtain ⟨i, hi, i1, i2⟩ := exists_idx hh (hX e he).1.le hin
      obtain ⟨s1, e1, e2, -⟩ := Spline.mk?_spec f.A1h w d (by omega) hl
      rw [hs'] at e1
      cases e1
      have hhh := hs.h
      rw [e2] at hhh
      exact spline_near h.sound mix_vl hh hl hs' hs (hr e he r h1) (by omega) i1 i2 (h.near (hr e he r h1) hhh hh i1 i2)

/-! ## Pair repulsion -/

section zbl
variable {r M : ℕ → ℝ} {r' M' : ℝ}

theorem Fam.powi (h : Fam A c δ) {a : ℕ → ℝ} {x : ℝ} (ha : VL a x) {p : ℤ} (hp : 0 ≤ p) : VL (fun n => (A n).powi (a n) p) (x ^ p) :=
  h.close' (fun n => (h.acc n).powi _ _ hp) (Tendsto.zpow₀ ha p (.inr hp))

theorem Fam.pow (h : Fam A c δ) {a b : ℕ → ℝ} {x y : ℝ} (ha : VL a x) (hb : VL b y) (hx : 0 < x) : VL (fun n => (A n).pow (a n) (b n)) (x ^ y) :=
  h.close (by
    filter_upwards [Tendsto.eventually ha (lt_mem_nhds hx)] with n hn
    exact (h.acc n).pow _ _ hn) (Tendsto.rpow ha hb (.inl hx.ne'))

/-- The two branches of a test `r >= M` whose second branch vanishes where it begins. -/
theorem Fam.branch (h : Fam A c δ) (hr : VL r r') (hM : VL M M') {z w : ℕ → ℝ} {y : ℝ} (hz : VL z 0) (hw : r' ≤ M' → VL w y) (hy : r' = M' → y = 0) :
    VL (fun n => if (A n).le (M n) (r n) = true then z n else w n) (if r' ≥ M' then 0 else y) := by
  rcases lt_trichotomy r' M' with hlt | heq | hgt
  · rw [if_neg (not_le.mpr hlt)]
    refine (hw hlt.le).congr' ?_
    filter_upwards [(Tendsto.sub hM hr).eventually (lt_mem_nhds (sub_pos.mpr hlt))] with n hn
    rw [if_neg]
    rw [(h.acc n).le]
    linarith
  · rw [if_pos heq.ge]
    have := hw heq.le
    rw [hy heq] at this
    exact mix_vl _ _ _ _ hz this
  · rw [if_pos hgt.le]
    refine hz.congr' ?_
    filter_upwards [(Tendsto.sub hr hM).eventually (lt_mem_nhds (sub_pos.mpr hgt))] with n hn
    rw [if_pos]
    rw [(h.acc n).le]
    linarith

theorem Fam.envelope (h : Fam A c δ) (hr : VL r r') (hM : VL M M') (h0 : 0 < r') {p : ℤ} (hp : 1 ≤ p) :
    VL (fun n => computeEnvelope (A := A n) (r n) (M n) p) (ZBLModel.computeEnvelope r' M' p) := by
  have hS := h.sound
  have l2 := hS.litN 2
  have q := hS.ofInt p
  refine h.branch hr hM hS.zero' (fun hle => ?_) (fun he => ?_)
  · have hM0 : DN M' := (lt_of_lt_of_le h0 hle).ne'
    have hx := hS.div hr hM hM0
    have x0 := h.powi hx (p := p) (by omega)
    have x1 := h.powi hx (p := p + 1) (by omega)
    have x2 := h.powi hx (p := p + 2) (by omega)
    have d2 : DN 2 := two_ne_zero
    rel
  · subst he
    dsimp only
    rw [div_self h0.ne', one_zpow, one_zpow, one_zpow]
    ring

theorem Fam.envelopeGradient (h : Fam A c δ) (hr : VL r r') (hM : VL M M') (h0 : 0 < r') {p : ℤ} (hp : 1 ≤ p) :
    VL (fun n => computeEnvelopeGradient (A := A n) (r n) (M n) p) (ZBLModel.computeEnvelopeGradient r' M' p) := by
  have hS := h.sound
  have l2 := hS.litN 2
  have q := hS.ofInt p
  refine h.branch hr hM hS.zero' (fun hle => ?_) (fun he => ?_)
  · have hM0 : DN M' := (lt_of_lt_of_le h0 hle).ne'
    have hx := hS.div hr hM hM0
    have x0 := h.powi hx (p := p) (by omega)
    have x1 := h.powi hx (p := p + 1) (by omega)
    have x2 := h.powi hx (p := p - 1) (by omega)
    have d2 : DN 2 := two_ne_zero
    rel
  · subst he
    dsimp only
    rw [div_self h0.ne', one_zpow, one_zpow, one_zpow]
    have : (-(((p : ℝ) + 1) * (p + 2) / 2) * p * 1 + p * (p + 2) * (p + 1) * 1 - p * (p + 1) / 2 * (p + 2) * 1) = 0 := by ring
    rw [this, zero_div]

theorem Sound.litD (hS : Sound A VL DN) (q : ℚ) {x : ℝ} (hx : (q : ℝ) = x) : VL (fun n => (A n).lit q) x := hx ▸ hS.lit q

variable {z : ZBLModel.ZBL}

theorem Fam.zbl (h : Fam A c δ) (hφ : ∀ x, VL (fun n => φ n x) x) (hf : FileOk f) (hz : f.zbl = some z) (hzo : ZblOk z f.atomicNumbers)
    (hT : SysOk f T) (hX : Inside f T X)
    (hr : ∀ e < T.E, ∀ r : ℕ → ℝ, (∀ n, (g n).r[e]? = some (r n)) → VL r (len (X e))) :
    REvalZbl atTop A VL g (T.graph X) f.atomicNumbers (fun n => loadZbl (φ n) z) z := by
  have hS := h.sound
  have hp := (hf.zbl z hz).2.1
  have hrad := conv1 hφ z.rad
  have hc := conv1 hφ z.c
  have k1 := hS.litD 0.529 (x := 0.529) (by norm_num)
  have k2 := hS.litD (-3.2) (x := -3.2) (by norm_num)
  have k3 := hS.litD (-0.9423) (x := -0.9423) (by norm_num)
  have k4 := hS.litD (-0.4028) (x := -0.4028) (by norm_num)
  have k5 := hS.litD (-0.2016) (x := -0.2016) (by norm_num)
  have k6 := hS.litD 14.3996 (x := 14.3996) (by norm_num)
  have k7 := hS.litD 0.5 (x := 0.5) (by norm_num)
  constructor
  all_goals
    intro ti ij tj he Zi Zj hZi hZj r r' hr1 hr2
    obtain ⟨hE, -⟩ := edgeOf_graph hT he
    have hrr := hr ij hE r hr1
    rw [← graph_r hr2] at hrr
    have h0 : 0 < r' := by rw [graph_r hr2]; exact (hX ij hE).1
    have hi0 : (0 : ℝ) < Zi := by exact_mod_cast hzo.2 Zi (List.mem_of_getElem? hZi)
    have hj0 : (0 : ℝ) < Zj := by exact_mod_cast hzo.2 Zj (List.mem_of_getElem? hZj)
    have vi : VL (fun n => (A n).ofInt (Zi : ℤ)) (Zi : ℝ) := by have := hS.ofInt (Zi : ℤ); rwa [Int.cast_natCast] at this
    have vj : VL (fun n => (A n).ofInt (Zj : ℤ)) (Zj : ℝ) := by have := hS.ofInt (Zj : ℤ); rwa [Int.cast_natCast] at this
    have dpos : DN ((Zi : ℝ) ^ z.aExp + (Zj : ℝ) ^ z.aExp) := (add_pos (Real.rpow_pos_of_pos hi0 _) (Real.rpow_pos_of_pos hj0 _)).ne'
    have va : VL (fun n => zblLength (A := A n) (loadZbl (φ n) z) Zi Zj) (z.aPre * 0.529 / ((Zi : ℝ) ^ z.aExp + (Zj : ℝ) ^ z.aExp)) :=
      hS.div (hS.mul (hφ _) k1) (hS.add (h.pow vi (hφ _) hi0) (h.pow vj (hφ _) hj0)) dpos
    have da : DN (z.aPre * 0.529 / ((Zi : ℝ) ^ z.aExp + (Zj : ℝ) ^ z.aExp)) := div_ne_zero (mul_ne_zero hzo.1 (by norm_num)) dpos
    have dr : DN r' := h0.ne'
    have drr : DN (r' * r') := mul_ne_zero h0.ne' h0.ne'
    have vq := hS.div hrr va da
    have x0 := h.exp (hS.mul k2 vq)
    have x1 := h.exp (hS.mul k3 vq)
    have x2 := h.exp (hS.mul k4 vq)
    have x3 := h.exp (hS.mul k5 vq)
    first
    | unfold zblCompute ZBLModel.ZBL.compute
      refine RO.bind (hrad.get _) fun u u' hu => RO.bind (hrad.get _) fun v v' hv => RO.bind (hc.get _) fun c0 c0' hc0 => RO.bind (hc.get _) fun c1 c1' hc1 =>
        RO.bind (hc.get _) fun c2 c2' hc2 => RO.bind (hc.get _) fun c3 c3' hc3 => RO.pure ?_
      have env := h.envelope hrr (hS.add hu hv) h0 hp
      have ephi := hS.add (hS.add (hS.add (hS.mul hc0 x0) (hS.mul hc1 x1)) (hS.mul hc2 x2)) (hS.mul hc3 x3)
      exact hS.mul (hS.mul (hS.div (hS.mul (hS.mul k6 vi) vj) hrr dr) ephi) (hS.mul k7 env)
    | unfold zblGradient ZBLModel.ZBL.computeGradient
      refine RO.bind (hrad.get _) fun u u' hu => RO.bind (hrad.get _) fun v v' hv => RO.bind (hc.get _) fun c0 c0' hc0 => RO.bind (hc.get _) fun c1 c1' hc1 =>
        RO.bind (hc.get _) fun c2 c2' hc2 => RO.bind (hc.get _) fun c3 c3' hc3 => RO.pure ?_
      have env := h.envelope hrr (hS.add hu hv) h0 hp
      have denv := h.envelopeGradient hrr (hS.add hu hv) h0 hp
      have ephi := hS.add (hS.add (hS.add (hS.mul hc0 x0) (hS.mul hc1 x1)) (hS.mul hc2 x2)) (hS.mul hc3 x3)
      have dphi := hS.div (hS.add (hS.add (hS.add (hS.mul k2 (hS.mul hc0 x0)) (hS.mul k3 (hS.mul hc1 x1))) (hS.mul k4 (hS.mul hc2 x2)))
        (hS.mul k5 (hS.mul hc3 x3))) va da
      exact hS.mul k7 (hS.add (hS.mul (hS.mul (hS.div (hS.mul (hS.mul k6 vi) vj) hrr dr) ephi) denv)
        (hS.mul (hS.div (hS.mul (hS.mul (hS.mul k6 vi) vj) (hS.sub (hS.mul hrr dphi) ephi)) (hS.mul hrr hrr) drr) env))

end zbl

/-! ## Successive calls -/

theorem RL.ofForall {ι α β : Type} {R : (ι → α) → β → Prop} {Q : ι → α → β → Prop} (hQ : ∀ a y, (∀ n, Q n (a n) y) → R a y) {xs : ι → List α} {ys : List β}
    (h : ∀ n, List.Forall₂ (Q n) (xs n) ys) : RL R xs ys := by
  induction ys generalizing xs with
  | nil =>
    have : xs = fun _ => [] := funext fun n => List.forall₂_nil_right_iff.mp (h n)
    rw [this]; exact RL.nil
  | cons y ys ih =>
    have h2 : ∀ n, ∃ a as, Q n a y ∧ List.Forall₂ (Q n) as ys ∧ xs n = a :: as := fun n => List.forall₂_cons_right_iff.mp (h n)
    choose a as h3 h4 h5 using h2
    have : xs = fun n => a n :: as n := funext h5
    rw [this]
    exact RL.cons (hQ a y h3) (ih h4)

/-- The harmonics converge at the bond vectors. -/
theorem Fam.rsph (h : Fam A c δ) {sph : ℕ → ℝ → ℝ → ℝ → ℕ → ℝ} {dsph : ℕ → ℝ → ℝ → ℝ → ℕ → ℕ → ℝ} {sph' : ℝ → ℝ → ℝ → ℕ → ℝ}
    {dsph' : ℝ → ℝ → ℝ → ℕ → ℕ → ℝ} {q : Sys × (ℕ → ℕ → ℝ)} {L : ℕ} (hc : SphCont sph' dsph' L q) {η : ℝ} (hη : 0 < η)
    (h1 : ∀ n, ∀ e < q.1.E, ∀ x y z, |x - q.2 e 0| < η → |y - q.2 e 1| < η → |z - q.2 e 2| < η →
      ∀ lm < (L + 1) * (L + 1), Close (δ n) (sph n z x y lm) (sph' z x y lm))
    (h2 : ∀ n, ∀ e < q.1.E, ∀ x y z, |x - q.2 e 0| < η → |y - q.2 e 1| < η → |z - q.2 e 2| < η →
      ∀ i < 3, ∀ lm < (L + 1) * (L + 1), Close (δ n) (dsph n z x y i lm) (dsph' z x y i lm)) :
    RSph VL sph dsph sph' dsph' L q.1.E q.2 := by
  have nearη : ∀ {a : ℕ → ℝ} {x : ℝ}, VL a x → ∀ᶠ n in atTop, |a n - x| < η := fun {a x} ha => by
    have := (Tendsto.sub_const ha x).abs
    rw [sub_self, abs_zero] at this
    exact this.eventually (gt_mem_nhds hη)
  have key : ∀ {w : ℕ → ℝ → ℝ → ℝ → ℝ} {w' : ℝ → ℝ → ℝ → ℝ} {e : ℕ} {a b d : ℕ → ℝ},
      (∀ n, ∀ x y z, |x - q.2 e 0| < η → |y - q.2 e 1| < η → |z - q.2 e 2| < η → Close (δ n) (w n z x y) (w' z x y)) →
      ContinuousAt (fun p : ℝ × ℝ × ℝ => w' p.1 p.2.1 p.2.2) (q.2 e 2, q.2 e 0, q.2 e 1) →
      VL a (q.2 e 2) → VL b (q.2 e 0) → VL d (q.2 e 1) → VL (fun n => w n (a n) (b n) (d n)) (w' (q.2 e 2) (q.2 e 0) (q.2 e 1)) := by
    intro w w' e a b d hw hcont ha hb hd
    have h3 : Tendsto (fun n => w' (a n) (b n) (d n)) atTop (𝓝 (w' (q.2 e 2) (q.2 e 0) (q.2 e 1))) :=
      hcont.tendsto.comp (ha.prodMk_nhds (hb.prodMk_nhds hd))
    refine h.close ?_ h3
    filter_upwards [nearη ha, nearη hb, nearη hd] with n e1 e2 e3
    exact hw n _ _ _ e2 e3 e1
  exact ⟨fun e he a b d lm hlm ha hb hd => key (w := fun n z x y => sph n z x y lm) (w' := fun z x y => sph' z x y lm)
      (fun n x y z e1 e2 e3 => h1 n e he x y z e1 e2 e3 lm hlm) ((hc e he).1 lm hlm) ha hb hd,
    fun e he a b d i h3 lm hlm ha hb hd => key (w := fun n z x y => dsph n z x y i lm) (w' := fun z x y => dsph' z x y i lm)
      (fun n x y z e1 e2 e3 => h2 n e he x y z e1 e2 e3 i h3 lm hlm) ((hc e he).2 i h3 lm hlm) ha hb hd⟩

/-- A call at which the exact evaluation is continuous. -/
structure CallOk (f : File) (sph : ℝ → ℝ → ℝ → ℕ → ℝ) (q : Sys × (ℕ → ℕ → ℝ)) : Prop where
  sys : SysOk f q.1
  inside : Inside f q.1 q.2
  scales : ∀ i < q.1.N, (confOf f sph q.1 q.2).s0 i ≠ 0 ∧ (confOf f sph q.1 q.2).s1 i ≠ 0

/-- Exact results of a call. -/
noncomputable def exactOf (f : File) (sph : ℝ → ℝ → ℝ → ℕ → ℝ) (dsph : ℝ → ℝ → ℝ → ℕ → ℕ → ℝ) (q : Sys × (ℕ → ℕ → ℝ)) : List ℝ × List ℝ :=
  (tab q.1.N (energy (netOf f) (confOf f sph q.1 q.2)), tab2 q.1.E 3 (forceOf f sph dsph q.1 q.2))

theorem Fam.runAll (h : Fam A c δ) (hφ : ∀ x, VL (fun n => φ n x) x) (hf : FileOk f) (hz : ∀ z, f.zbl = some z → ZblOk z f.atomicNumbers)
    {sph : ℕ → ℝ → ℝ → ℝ → ℕ → ℝ} {dsph : ℕ → ℝ → ℝ → ℝ → ℕ → ℕ → ℝ} {sph' : ℝ → ℝ → ℝ → ℕ → ℝ} {dsph' : ℝ → ℝ → ℝ → ℕ → ℕ → ℝ}
    {P : ℕ → Params ℝ} {P' : Params ℝ} (hP : Loaded f sph' dsph' P') (hL : RLoaded A VL DN φ f sph dsph sph' dsph' P P')
    {calls : List (Sys × (ℕ → ℕ → ℝ))} (hc : ∀ q ∈ calls, CallOk f sph' q ∧ RSph VL sph dsph sph' dsph' f.lmax q.1.E q.2)
    {is : ℕ → List (Sys × List ℝ × List ℝ)} (hi : ∀ n, List.Forall₂ (InputNear (δ n)) (is n) calls) {s : ℕ → State ℝ} {s' : State ℝ} (hs : RState VL s s')
    (hst : StOk f s') :
    RO atTop (RL (RP (RL VL) (RL VL))) (fun n => Num.runAll (A := A n) (f.zbl.map (loadZbl (φ n))) (P n) (is n) (s n))
      (some (calls.map (exactOf f sph' dsph'))) := by
  induction calls generalizing is s s' with
  | nil =>
    have : is = fun _ => [] := funext fun n => List.forall₂_nil_right_iff.mp (hi n)
    rw [this]
    exact RO.some RL.nil
  | cons q qs ih =>
    have h2 : ∀ n, ∃ a as, InputNear (δ n) a q ∧ List.Forall₂ (InputNear (δ n)) as qs ∧ is n = a :: as := fun n => List.forall₂_cons_right_iff.mp (hi n)
    choose a as h3 h4 h5 using h2
    obtain ⟨hq, hsph⟩ := hc q (List.mem_cons_self ..)
    obtain ⟨s2, e1, e2, e3, e4⟩ := compute_spec hf hq.sys hP hq.inside hst
    have hrr : RL VL (fun n => (a n).2.2) (q.1.graph q.2).r := RL.ofForall (fun a y hay => h.close' hay tendsto_const_nhds) fun n => (h3 n).2.2
    have hg : RGraph VL DN q.1.E q.2 (fun n => graphOf (a n).1 (a n).2.1 (a n).2.2) (q.1.graph q.2) :=
      { N := fun n => by rw [(h3 n).1]; rfl, types := fun n => by rw [(h3 n).1]; rfl, nn := fun n => by rw [(h3 n).1]; rfl
        idx := fun n => by rw [(h3 n).1]; rfl, ntypes := fun n => by rw [(h3 n).1]; rfl
        xyz := RL.ofForall (fun a y hay => h.close' hay tendsto_const_nhds) fun n => (h3 n).2.1
        r := hrr, xyz_eq := rfl
        pos := fun ij r hr => by
          rw [graph_r hr]
          have : ij < q.1.E := by
            have := (List.getElem?_eq_some_iff.mp hr).1
            simpa [Sys.graph] using this
          exact (hq.inside ij this).1.ne' }
    have hr : ∀ e < q.1.E, ∀ r : ℕ → ℝ, (∀ n, (graphOf (a n).1 (a n).2.1 (a n).2.2).r[e]? = some (r n)) → VL r (len (q.2 e)) := fun e he r hr =>
      hrr.at hr (by simp [Sys.graph, he])
    have hden := den_of (D := DN) hf hq.sys hP hq.inside hq.scales
    have hev := evals_of hf hq.sys hP hL (h.tab (φ := φ) hf hq.inside hr) hden.1 hden.2
    have hzz : (∀ n : ℕ, f.zbl.map (loadZbl (φ n)) = none) ∧ f.zbl = none ∨ ∃ z z', (∀ n : ℕ, f.zbl.map (loadZbl (φ n)) = some (z n)) ∧ f.zbl = some z' ∧
        REvalZbl atTop A VL (fun n => graphOf (a n).1 (a n).2.1 (a n).2.2) (q.1.graph q.2) P'.atomicNumbers z z' := by
      cases hz1 : f.zbl with
      | none => exact .inl ⟨fun _ => rfl, rfl⟩
      | some z => exact .inr ⟨fun n => loadZbl (φ n) z, z, fun _ => rfl, rfl, by rw [hP.an]; exact h.zbl hφ hf hz1 (hz z hz1) hq.sys hq.inside hr⟩
    obtain ⟨t, k1, k2⟩ := compute_rel h.sound (hL.params q.1.E q.2 hsph) hg hs hev hzz _ e1
    obtain ⟨o, k3, k4⟩ := ih (fun q hq => hc q (List.mem_cons_of_mem _ hq)) h4 k2 e4 _ rfl
    rintro _ ⟨⟩
    refine ⟨fun n => ((t n).nodeEnergies, (t n).nodeForces) :: o n, ?_, ?_⟩
    · filter_upwards [k1, k3] with n m1 m2
      rw [h5 n]
      simp only [Num.runAll]
      rw [m1]
      simp only [Option.bind_eq_bind, Option.bind_some]
      rw [m2]
      rfl
    · rw [List.map_cons]
      refine RL.cons (RP.mk ?_ ?_) k4
      · have := k2.nodeEnergies
        rwa [e2] at this
      · have := k2.nodeForces
        rwa [e3] at this

/-- Eventually within `ε`. -/
theorem RL.near {xs : ℕ → List ℝ} {ys : List ℝ} (h : RL VL xs ys) {ε : ℝ} (hε : 0 < ε) : ∀ᶠ n in atTop, BufNear ε (xs n) ys := by
  induction ys generalizing xs with
  | nil => rw [h.nil_inv]; exact Eventually.of_forall fun n => .nil
  | cons y ys ih =>
    obtain ⟨a, as, rfl, h1, h2⟩ := h.cons_inv
    have := (Tendsto.sub_const h1 y).abs
    rw [sub_self, abs_zero] at this
    filter_upwards [this.eventually (gt_mem_nhds hε), ih h2] with n e1 e2
    exact .cons e1.le e2

theorem RL.near2 {xs : ℕ → List (List ℝ × List ℝ)} {ys : List (List ℝ × List ℝ)} (h : RL (RP (RL VL) (RL VL)) xs ys) {ε : ℝ} (hε : 0 < ε) :
    ∀ᶠ n in atTop, List.Forall₂ (fun x y => BufNear ε x.1 y.1 ∧ BufNear ε x.2 y.2) (xs n) ys := by
  induction ys generalizing xs with
  | nil => rw [h.nil_inv]; exact Eventually.of_forall fun n => .nil
  | cons y ys ih =>
    obtain ⟨a, as, rfl, ⟨u, v, rfl, h1, h2⟩, h3⟩ := h.cons_inv
    filter_upwards [h1.near hε, h2.near hε, ih h3] with n e1 e2 e3
    exact .cons ⟨e1, e2⟩ e3

/-- There is an accuracy from which on the results are within `ε`. -/
theorem exists_accuracy (hf : FileOk f) (hz : ∀ z, f.zbl = some z → ZblOk z f.atomicNumbers) {srt : List (List (List ℕ)) → List (List (List ℕ))}
    (hsrt : Poly.SortFn srt) {sph' : ℝ → ℝ → ℝ → ℕ → ℝ} {dsph' : ℝ → ℝ → ℝ → ℕ → ℕ → ℝ} {calls : List (Sys × (ℕ → ℕ → ℝ))}
    (hc : ∀ q ∈ calls, CallOk f sph' q) (hcont : ∀ q ∈ calls, SphCont sph' dsph' f.lmax q) (c : ℕ → ℝ) {η ε : ℝ} (hη : 0 < η) (hε : 0 < ε) :
    ∃ δ, 0 < δ ∧ δ ≤ 1 ∧ ∀ M : Machine, M.AccurateFor c δ η sph' dsph' f.lmax calls → ∀ is : List (Sys × List ℝ × List ℝ), List.Forall₂ (InputNear δ) is calls →
      ∃ P s0 outs, Num.load (A := M.A) srt M.φ M.sph M.dsph M.nrm f = some (P, s0) ∧
        Num.runAll (A := M.A) (f.zbl.map (loadZbl M.φ)) P is s0 = some outs ∧
        List.Forall₂ (fun x y => BufNear ε x.1 y.1 ∧ BufNear ε x.2 y.2) outs (calls.map (exactOf f sph' dsph')) := by
  by_contra hcon
  push Not at hcon
  have hpos : ∀ n : ℕ, (0 : ℝ) < 1 / ((n : ℝ) + 1) := fun n => Nat.one_div_pos_of_nat
  have hle : ∀ n : ℕ, (1 : ℝ) / ((n : ℝ) + 1) ≤ 1 := fun n => by
    rw [div_le_one (by positivity)]
    linarith [n.cast_nonneg (α := ℝ)]
  choose M hM is his hbad using fun n : ℕ => hcon (1 / ((n : ℝ) + 1)) (hpos n) (hle n)
  have hF : Fam (fun n => (M n).A) c (fun n : ℕ => 1 / ((n : ℝ) + 1)) := ⟨hpos, tendsto_one_div_add_atTop_nhds_zero_nat, fun n => (hM n).arith⟩
  have hφ : ∀ x, VL (fun n => (M n).φ x) x := fun x => hF.close' (fun n => (hM n).conv x) tendsto_const_nhds
  have nz : ∀ {x : ℝ}, 0 < x → DN (x * x) ∧ DN (x * x * x) := fun hx => ⟨(mul_pos hx hx).ne', (mul_pos (mul_pos hx hx) hx).ne'⟩
  obtain ⟨P', s', h1, h2, h3⟩ := load_spec hf hsrt sph' dsph'
  obtain ⟨q, h4, P, s, rfl, h5, h6⟩ := load_rel (l := atTop) (sph := fun n => (M n).sph) (dsph := fun n => (M n).dsph) hF.sound hF.rexp hφ
    (hF.close' (fun n => (hM n).nrm) tendsto_const_nhds) (nz hf.h) (fun h => nz (hf.A0s h).1) (fun h => nz (hf.A1s h).1) _ h1
  obtain ⟨o, k1, k2⟩ := hF.runAll hφ hf hz h2 h5 (fun q hq => ⟨hc q hq, hF.rsph (hcont q hq) hη (fun n => (hM n).sph q hq) (fun n => (hM n).dsph q hq)⟩)
    his h6 h3 _ rfl
  obtain ⟨n, m1, m2, m3⟩ := (h4.and (k1.and (k2.near2 hε))).exists
  exact hbad n _ _ _ m1 m2 m3

end Verif.Num
