import Verif.Lemmas.Num.Run
import Verif.Spec.Num

/-!
# Runs in an arithmetic without laws

The relation that holds for all numbers: only the success of the runs and the lengths of the buffers are compared.
-/

namespace Verif.Num
open Filter Verif.Spline Verif.MACE Verif.Spec

variable {ι : Type} {l : Filter ι} {K : Type} {A : ι → Arith K} {φ : ι → ℝ → K}
  {sph : ι → K → K → K → ℕ → K} {dsph : ι → K → K → K → ℕ → ℕ → K} {sph' : ℝ → ℝ → ℝ → ℕ → ℝ} {dsph' : ℝ → ℝ → ℝ → ℕ → ℕ → ℝ}
  {f : File} {T : Sys} {X : ℕ → ℕ → ℝ} {P : ι → Params K} {P' : Params ℝ} {g : ι → Graph K}

/-- Every family of numbers is related to every number. -/
def VT (_ : ι → K) (_ : ℝ) : Prop := True

def DT (_ : ℝ) : Prop := True

theorem sound_true : Sound A (VT (ι := ι)) DT := by
  constructor <;> intros <;> trivial

theorem exp_true : RExp A (VT (ι := ι)) DT Real.exp := by
  constructor <;> intros <;> trivial

theorem sph_true {L E : ℕ} : RSph (VT (ι := ι)) sph dsph sph' dsph' L E X := by
  constructor <;> intros <;> trivial

theorem RL.ofLen {xs : ι → List K} {ys : List ℝ} (h : ∀ n, (xs n).length = ys.length) : RL VT xs ys := by
  refine ⟨List.ofFn fun i : Fin ys.length => fun n => (xs n)[i.1]'(by rw [h]; exact i.2), ?_, ?_⟩
  · rw [List.forall₂_iff_get]
    exact ⟨by simp, fun _ _ _ => trivial⟩
  · funext n
    apply List.ext_getElem
    · simp [h]
    · intro i h1 h2; simp

theorem RO.ofSome {o : ι → Option K} {p : Option ℝ} (A : ι → Arith K) (h : ∀ n, (o n).isSome) : RO l VT o p := fun _ _ => by
  refine ⟨fun n => (o n).getD ((A n).lit 0), Eventually.of_forall fun n => ?_, trivial⟩
  obtain ⟨a, ha⟩ := Option.isSome_iff_exists.mp (h n)
  dsimp only; rw [ha]; rfl

theorem readOff_some {c : List K} {S n q j : ℕ} (hc : c.length = 4 * S * (n - 1)) (hq : q < 4) (hj : j < S) {t : ℤ} (h0 : 0 ≤ t)
    (h1 : t < (n - 1 : ℕ)) : (readOff c (4 * t * S + q * S) j).isSome := by
  obtain ⟨k, rfl⟩ := Int.eq_ofNat_of_zero_le h0
  have e : (4 * (k : ℤ) * S + q * S + j) = ((4 * k * S + q * S + j : ℕ) : ℤ) := by push_cast; ring
  unfold readOff
  rw [e, if_neg (by omega), Int.toNat_natCast]
  have hk : k + 1 ≤ n - 1 := by omega
  have : 4 * k * S + q * S + j < c.length := by
    rw [hc]
    calc 4 * k * S + q * S + j < 4 * k * S + q * S + S := by omega
      _ = 4 * k * S + (q + 1) * S := by ring
      _ ≤ 4 * k * S + 4 * S := Nat.add_le_add_left (Nat.mul_le_mul_right _ (by omega)) _
      _ = 4 * S * (k + 1) := by ring
      _ ≤ _ := Nat.mul_le_mul_left _ hk
  simp [this]

theorem set_true {S n : ℕ} {vals ders : List (List ℝ)} {h : ℝ} (H : Rect S n vals ders) (hS : 0 < S) {s : ι → SplineSet K} {s' : SplineSet ℝ}
    (hs' : SplineSet.mk? h vals ders = some s') {h0 : ι → K} (hs : RSet VT h0 s s') {r : ι → K} (hr : ∀ m, IdxIn (A m) (r m) (h0 m) n) {r' : ℝ}
    {base : ℕ} {st : ι → Bufs Bool K} {st' : Bufs Bool ℝ} (hst : RB VT st st') :
    RO l (RB VT) (fun m => setDerivs (A := A m) (s m) (r m) base (st m)) (s'.evaluateDerivs r' base st') := by
  rcases isEmpty_or_nonempty ι with hι | ⟨⟨m0⟩⟩
  · rw [setDerivs_run']
    simp only [setDerivs_run]
    exact setRun_rel sound_true hs (fun q hq j hj => RO.ofSome A fun m => isEmptyElim m) trivial hst
  have hn : 0 < n := by have := (hr m0).1; have := (hr m0).2; omega
  obtain ⟨s1, e1, -, -, e2, e3, -⟩ := SplineSet.mk?_spec h H hS hn
  rw [hs'] at e1
  cases e1
  rw [setDerivs_run']
  simp only [setDerivs_run]
  refine setRun_rel sound_true hs (fun q hq j hj => RO.ofSome A fun m => ?_) trivial hst
  rw [e2] at hj ⊢
  rw [hs.h0 m]
  exact readOff_some ((hs.c.length m).trans e3) hq hj (hr m).1 (hr m).2

theorem RO.ofSome4 {o : ι → Option (K × K × K × K)} {p : Option (ℝ × ℝ × ℝ × ℝ)} (A : ι → Arith K) (h : ∀ n, (o n).isSome) : RO l (R4 VT) o p := fun b _ => by
  let z := fun n => (A n).lit 0
  refine ⟨fun n => (o n).getD (z n, z n, z n, z n), Eventually.of_forall fun n => ?_, ⟨_, _, rfl, trivial, ⟨_, _, rfl, trivial, ⟨_, _, rfl, trivial, trivial⟩⟩⟩⟩
  obtain ⟨a, ha⟩ := Option.isSome_iff_exists.mp (h n)
  dsimp only; rw [ha]; rfl

theorem coeffs4_some {c : List K} {n : ℕ} (hc : c.length = 4 * (n - 1)) {t : ℤ} (h0 : 0 ≤ t) (h1 : t < (n - 1 : ℕ)) : (coeffs4 c t).isSome := by
  unfold coeffs4
  rw [if_neg (by omega)]
  have : ∀ q < 4, ∃ x, c[4 * t.toNat + q]? = some x := fun q hq => ⟨_, List.getElem?_eq_getElem (by omega)⟩
  obtain ⟨x0, e0⟩ := this 0 (by omega)
  obtain ⟨x1, e1⟩ := this 1 (by omega)
  obtain ⟨x2, e2⟩ := this 2 (by omega)
  obtain ⟨x3, e3⟩ := this 3 (by omega)
  rw [add_zero] at e0
  simp only [e0, e1, e2, e3]
  rfl

theorem spl_true {w d : List ℝ} {h : ℝ} (hl : w.length ≤ d.length) {s : ι → CubicSpline K} {s' : CubicSpline ℝ}
    (hs' : CubicSpline.mk? h w d = some s') {h0 : ι → K} (hs : RSpl VT h0 s s') {r : ι → K} (hr : ∀ m, IdxIn (A m) (r m) (h0 m) w.length) {r' : ℝ} :
    RO l VT (fun m => ofOut (splineValue (A := A m) (s m) (r m))) (ofOut (s'.evaluate r')) ∧
    RO l (RP VT VT) (fun m => ofOut (splineDeriv (A := A m) (s m) (r m))) (ofOut (s'.evaluateDeriv r')) := by
  have hlen : ∀ m, (s m).c.length = 4 * (w.length - 1) := fun m => by
    have : 0 < w.length := by have := (hr m).1; have := (hr m).2; omega
    obtain ⟨s1, e1, -, e2, -⟩ := Spline.mk?_spec h w d this hl
    rw [hs'] at e1
    cases e1
    exact (hs.c.length m).trans e2
  have hi : ∀ m, 0 ≤ (A m).trunc ((A m).div (r m) (s m).h) ∧ (A m).trunc ((A m).div (r m) (s m).h) < ((s m).c.length / 4 : ℕ) := fun m => by
    rw [hlen m, hs.h0 m, Nat.mul_div_cancel_left _ (by omega : 0 < 4)]; exact hr m
  have hc : ∀ m, (coeffs4 (s m).c ((A m).trunc ((A m).div (r m) (s m).h))).isSome := fun m =>
    coeffs4_some (hlen m) (hi m).1 (by have := (hi m).2; rwa [hlen m, Nat.mul_div_cancel_left _ (by omega : 0 < 4)] at this)
  rw [splineValue_run', splineDeriv_run']
  simp only [splineValue_run, splineDeriv_run]
  exact ⟨valRun_rel sound_true hi (RO.ofSome4 A hc) trivial, derRun_rel sound_true hi (RO.ofSome4 A hc) trivial⟩

theorem tab_true (hr : ∀ m, IndexIn (A m) (φ m) f (g m).r) : TabRel l A VT φ f T X g := by
  have hm : ∀ {e : ℕ} {r : ι → K}, (∀ n, (g n).r[e]? = some (r n)) → ∀ m, r m ∈ (g m).r := fun h m => List.mem_of_getElem? (h m)
  refine ⟨?_, ?_, ?_⟩
  · intro e he r h1 S n vals ders hn H hS s s' hs' hs base st st' hst
    refine set_true H hS hs' hs (fun m => ?_) hst
    rcases hn with rfl | rfl
    · exact (hr m _ (hm h1 m)).1.1
    · exact (hr m _ (hm h1 m)).1.2
  · intro h0 e he r h1 w hw d hl s s' hs' hs
    exact spl_true hl hs' hs fun m => (hr m _ (hm h1 m)).2.1 h0 w hw
  · intro h0 e he r h1 w hw d hl s s' hs' hs
    exact spl_true hl hs' hs fun m => (hr m _ (hm h1 m)).2.2 h0 w hw

theorem zbl_true (hf : FileOk f) {z : ZBLModel.ZBL} (hz : f.zbl = some z) :
    REvalZbl l A VT g (T.graph X) f.atomicNumbers (fun n => loadZbl (φ n) z) z := by
  obtain ⟨h1, -, h2⟩ := hf.zbl z hz
  have hrd : ∀ (n : ι) (Z : ℕ), Z ∈ f.atomicNumbers → ∃ x, (loadZbl (φ n) z).rad[Z]? = some x := fun n Z hZ =>
    ⟨_, List.getElem?_eq_getElem (by simp only [loadZbl, List.length_map]; exact h2 Z hZ)⟩
  have hc : ∀ (n : ι), ∀ q < 4, ∃ x, (loadZbl (φ n) z).c[q]? = some x := fun n q hq =>
    ⟨_, List.getElem?_eq_getElem (by simp only [loadZbl, List.length_map]; omega)⟩
  constructor
  all_goals
    intro ti ij tj he Zi Zj hZi hZj r r' _ _
    refine RO.ofSome A fun n => ?_
    obtain ⟨a, ha⟩ := hrd n Zi (List.mem_of_getElem? hZi)
    obtain ⟨b, hb⟩ := hrd n Zj (List.mem_of_getElem? hZj)
    obtain ⟨c0, e0⟩ := hc n 0 (by omega)
    obtain ⟨c1, e1⟩ := hc n 1 (by omega)
    obtain ⟨c2, e2⟩ := hc n 2 (by omega)
    obtain ⟨c3, e3⟩ := hc n 3 (by omega)
    first
    | simp only [zblCompute, ha, hb, e0, e1, e2, e3]; rfl
    | simp only [zblGradient, ha, hb, e0, e1, e2, e3]; rfl

/-! ## One run -/

section one
variable [A : Arith K] {φ : ℝ → K} {sph : K → K → K → ℕ → K} {dsph : K → K → K → ℕ → ℕ → K} {nrm : K} {srt : List (List (List ℕ)) → List (List (List ℕ))}
  {P : Params K} {P' : Params ℝ} {s : State K}

/-- The plain buffers have any contents; the sizes inside the polynomials and the network are those of an exact state. -/
def SizeOk (f : File) (s : State K) : Prop := ∃ s' : State ℝ, StOk f s' ∧ RState (VT (ι := Unit)) (fun _ => s) s'

theorem SizeOk.buffers {s2 : State K} (h : SizeOk f s) (h1 : s2.P0 = s.P0) (h2 : s2.P1 = s.P1) (h3 : s2.ro2 = s.ro2) : SizeOk f s2 := by
  obtain ⟨s', hs, hr⟩ := h
  have z : ∀ xs : List K, RL (VT (ι := Unit)) (fun _ => xs) (xs.map fun _ => (0 : ℝ)) := fun xs => RL.ofLen fun _ => by simp
  refine ⟨{ nodeEnergies := s2.nodeEnergies.map fun _ => 0, nodeForces := s2.nodeForces.map fun _ => 0, R0 := s2.R0.map fun _ => 0
            R0d := s2.R0d.map fun _ => 0, R1 := s2.R1.map fun _ => 0, R1d := s2.R1d.map fun _ => 0, Y := s2.Y.map fun _ => 0
            Yg := s2.Yg.map fun _ => 0, xyzs := s2.xyzs.map fun _ => 0, A0 := s2.A0.map fun _ => 0, A0a := s2.A0a.map fun _ => 0
            M0 := s2.M0.map fun _ => 0, M0g := s2.M0g.map fun _ => 0, M0a := s2.M0a.map fun _ => 0, H1 := s2.H1.map fun _ => 0
            H1a := s2.H1a.map fun _ => 0, Phi1r := s2.Phi1r.map fun _ => 0, dPhi1r := s2.dPhi1r.map fun _ => 0, Phi1 := s2.Phi1.map fun _ => 0
            dPhi1 := s2.dPhi1.map fun _ => 0, A1 := s2.A1.map fun _ => 0, A1a := s2.A1a.map fun _ => 0, M1 := s2.M1.map fun _ => 0
            M1g := s2.M1g.map fun _ => 0, M1a := s2.M1a.map fun _ => 0, H2 := s2.H2.map fun _ => 0, H2a := s2.H2a.map fun _ => 0
            P0 := s'.P0, P1 := s'.P1, ro2 := s'.ro2 }, ⟨hs.P0, hs.P1, hs.ro2⟩, ?_⟩
  constructor <;> try exact z _
  · simp only [h1]; exact hr.P0
  · simp only [h2]; exact hr.P1
  · simp only [h3]; exact hr.ro2

/-- Bond vectors of a length inside all tables. -/
theorem exists_inside (hf : FileOk f) {T : Sys} {r : List K} (hr : r.length = T.E) (hi : IndexIn A φ f r) : ∃ X, Inside f T X := by
  rcases Nat.eq_zero_or_pos T.E with h0 | h0
  · exact ⟨fun _ _ => 0, fun e he => absurd he (by omega)⟩
  have hx : r[0] ∈ r := List.getElem_mem (by omega)
  obtain ⟨⟨i0, i1⟩, i2, i3⟩ := hi _ hx
  have step : ∀ {h : ℝ} {n : ℕ} {x h' : K}, 0 < h → IdxIn A x h' n → h ≤ h * (n - 1 : ℕ) := fun {h n x h'} hh hi => by
    have h1 : (1 : ℝ) ≤ (n - 1 : ℕ) := by
      have := hi.1; have := hi.2
      exact_mod_cast (by omega : 1 ≤ n - 1)
    nlinarith
  let a0 := if f.A0scaled = true then f.A0h else 1
  let a1 := if f.A1scaled = true then f.A1h else 1
  have p0 : 0 < a0 := by
    show 0 < if f.A0scaled = true then f.A0h else 1
    split_ifs with h
    · exact (hf.A0s h).1
    · exact one_pos
  have p1 : 0 < a1 := by
    show 0 < if f.A1scaled = true then f.A1h else 1
    split_ifs with h
    · exact (hf.A1s h).1
    · exact one_pos
  let m := min f.splH (min a0 a1)
  have hm : 0 < m := lt_min hf.h (lt_min p0 p1)
  have m0 : m / 2 < f.splH := lt_of_lt_of_le (half_lt_self hm) (min_le_left _ _)
  have m1 : m / 2 < a0 := lt_of_lt_of_le (half_lt_self hm) ((min_le_right _ _).trans (min_le_left _ _))
  have m2 : m / 2 < a1 := lt_of_lt_of_le (half_lt_self hm) ((min_le_right _ _).trans (min_le_right _ _))
  refine ⟨fun _ a => if a = 0 then m / 2 else 0, fun e _ => ?_⟩
  have hl : len (fun a => if a = 0 then m / 2 else 0) = m / 2 := by
    unfold len
    simp [Finset.sum_range_succ, Real.sqrt_sq (half_pos hm).le]
  unfold InTable
  rw [hl]
  refine ⟨half_pos hm, m0.trans_le (step hf.h i0), m0.trans_le (step hf.h i1), fun hs w hw => ?_, fun hs w hw => ?_⟩
  · have : a0 = f.A0h := if_pos hs
    rw [this] at m1
    exact m1.trans_le (step (hf.A0s hs).1 (i2 hs w hw))
  · have : a1 = f.A1h := if_pos hs
    rw [this] at m2
    exact m2.trans_le (step (hf.A1s hs).1 (i3 hs w hw))

theorem load_true (hf : FileOk f) (hsrt : Poly.SortFn srt) :
    ∃ P s0, load srt φ sph dsph nrm f = some (P, s0) ∧ SizeOk f s0 ∧ ∃ P', Loaded f (fun _ _ _ _ => 0) (fun _ _ _ _ _ => 0) P' ∧
      RLoaded (fun _ : Unit => A) VT DT (fun _ => φ) f (fun _ => sph) (fun _ => dsph) (fun _ _ _ _ => 0) (fun _ _ _ _ _ => 0) (fun _ => P) P' := by
  obtain ⟨P', s', h1, h2, h3⟩ := load_spec hf hsrt (fun _ _ _ _ => 0) (fun _ _ _ _ _ => 0)
  obtain ⟨q, h4, a, b, rfl, h5, h6⟩ := load_rel (ι := Unit) (l := pure ()) (A := fun _ => A) (φ := fun _ => φ) (nrm := fun _ => nrm) (sph := fun _ => sph)
    (dsph := fun _ => dsph) sound_true exp_true (fun _ => trivial) trivial ⟨trivial, trivial⟩ (fun _ => ⟨trivial, trivial⟩) (fun _ => ⟨trivial, trivial⟩) _ h1
  rw [eventually_pure] at h4
  exact ⟨a (), b (), h4, ⟨s', h3, h6⟩, P', h2, h5⟩

theorem compute_true (hf : FileOk f) (hP : Loaded f sph' dsph' P')
    (hL : RLoaded (fun _ : Unit => A) VT DT (fun _ => φ) f (fun _ => sph) (fun _ => dsph) sph' dsph' (fun _ => P) P') (hs : SizeOk f s)
    {T : Sys} (hT : SysOk f T) {xyz r : List K} (hx : xyz.length = 3 * T.E) (hr : r.length = T.E) (hi : IndexIn A φ f r) :
    ∃ s2, compute (f.zbl.map (loadZbl φ)) P (graphOf T xyz r) s = some s2 ∧ s2.nodeEnergies.length = T.N ∧ s2.nodeForces.length = 3 * T.E ∧ SizeOk f s2 := by
  obtain ⟨X, hX⟩ := exists_inside hf hr hi
  obtain ⟨s', hst, hrs⟩ := hs
  obtain ⟨s2', e1, e2, e3, e4⟩ := compute_spec hf hT hP hX hst
  have hg : RGraph (VT (ι := Unit)) DT T.E X (fun _ => graphOf T xyz r) (T.graph X) :=
    { N := fun _ => rfl, types := fun _ => rfl, nn := fun _ => rfl, idx := fun _ => rfl, ntypes := fun _ => rfl
      xyz := RL.ofLen fun _ => by simp [graphOf, Sys.graph, hx, mul_comm], r := RL.ofLen fun _ => by simp [graphOf, Sys.graph, hr]
      xyz_eq := rfl, pos := fun _ _ _ => trivial }
  have hev : REvals (pure ()) (fun _ : Unit => A) VT DT (fun _ => graphOf T xyz r) (T.graph X) (fun _ => P) P' :=
    evals_of hf hT hP hL (tab_true fun _ => hi) (fun _ _ _ _ _ _ _ _ _ => trivial) (fun _ _ _ _ _ _ _ _ _ => trivial)
  have hz : (∀ _ : Unit, f.zbl.map (loadZbl φ) = none) ∧ f.zbl = none ∨ ∃ z z', (∀ n : Unit, f.zbl.map (loadZbl φ) = some (z n)) ∧ f.zbl = some z' ∧
      REvalZbl (pure ()) (fun _ : Unit => A) VT (fun _ => graphOf T xyz r) (T.graph X) P'.atomicNumbers z z' := by
    cases hz : f.zbl with
    | none => exact .inl ⟨fun _ => rfl, rfl⟩
    | some z => exact .inr ⟨fun _ => loadZbl φ z, z, fun _ => rfl, rfl, by rw [hP.an]; exact zbl_true hf hz⟩
  obtain ⟨a, h1, h2⟩ := compute_rel sound_true (hL.params T.E X sph_true) hg hrs hev hz _ e1
  rw [eventually_pure] at h1
  refine ⟨a (), h1, ?_, ?_, ⟨s2', e4, h2⟩⟩
  · exact (h2.nodeEnergies.length ()).trans (by rw [e2]; simp)
  · exact (h2.nodeForces.length ()).trans (by rw [e3, length_tab2, mul_comm])

end one

end Verif.Num
