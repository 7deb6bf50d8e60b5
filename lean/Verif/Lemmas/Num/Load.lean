import Verif.Lemmas.Num.Compute

/-!
# Families of runs: loading
-/

namespace Verif.Num
open Filter

section lists
variable {ι : Type} {l : Filter ι} {α β γ δ : Type} {R : (ι → α) → β → Prop}

theorem RL.nil_inv {xs : ι → List α} (h : RL R xs []) : xs = fun _ => [] := by
  obtain ⟨fs, h1, rfl⟩ := h
  cases h1
  rfl

theorem RL.cons_inv {xs : ι → List α} {y : β} {ys : List β} (h : RL R xs (y :: ys)) :
    ∃ f fs, xs = (fun n => f n :: fs n) ∧ R f y ∧ RL R fs ys := by
  obtain ⟨fs, h1, rfl⟩ := h
  cases h1 with
  | cons h1 h2 => exact ⟨_, _, rfl, h1, _, h2, rfl⟩

theorem mapInsert_rel {V : (ι → α) → β → Prop} {k : List ℕ} {c : ι → α} {c' : β} (hc : V c c') {m : ι → List (List ℕ × α)}
    {m' : List (List ℕ × β)} (h : RL (RP RE V) m m') : RL (RP RE V) (fun n => Poly.mapInsert k (c n) (m n)) (Poly.mapInsert k c' m') := by
  induction m' generalizing m with
  | nil =>
    rw [h.nil_inv]
    exact RL.single (RP.mk rfl hc)
  | cons y ys ih =>
    obtain ⟨f, fs, rfl, hf, hfs⟩ := h.cons_inv
    obtain ⟨a, rfl, ha⟩ : ∃ a, f = (fun n => (y.1, a n)) ∧ V a y.2 := by
      obtain ⟨b, a, rfl, hb, ha⟩ := hf
      have hb : b = fun _ => y.1 := hb
      subst hb
      exact ⟨a, rfl, ha⟩
    simp only [Poly.mapInsert]
    by_cases h1 : Poly.lexLess k y.1
    · simp only [if_pos h1]
      exact RL.cons (RP.mk rfl hc) (RL.cons (RP.mk (R := RE) (b := y.1) rfl ha) hfs)
    · by_cases h2 : Poly.lexLess y.1 k
      · simp only [if_neg h1, if_pos h2]
        exact RL.cons (RP.mk (R := RE) (b := y.1) rfl ha) (ih hfs)
      · simp only [if_neg h1, if_neg h2]
        exact RL.cons (RP.mk (R := RE) (b := y.1) rfl ha) hfs

theorem buildMap_rel {V : (ι → α) → β → Prop} {c : ι → List α} {c' : List β} (hc : RL V c c') (monos : List (List ℕ)) :
    RO l (RL (RP RE V)) (fun n => Poly.buildMap (c n) monos) (Poly.buildMap c' monos) := by
  unfold Poly.buildMap
  refine RO.loop (fun i m m' hm => ?_) RL.nil
  exact RO.bindConst fun k => RO.bind (hc.get _) fun a a' ha => RO.pure (mapInsert_rel ha hm)

theorem keys_eq {V : (ι → α) → β → Prop} {m : ι → List (List ℕ × α)} {m' : List (List ℕ × β)} (h : RL (RP RE V) m m') (n : ι) :
    (m n).map Prod.fst = m'.map Prod.fst := by
  induction m' generalizing m with
  | nil => rw [h.nil_inv]; rfl
  | cons y ys ih =>
    obtain ⟨f, fs, rfl, ⟨b, a, rfl, hb, ha⟩, hfs⟩ := h.cons_inv
    have hb : b = fun _ => y.1 := hb
    subst hb
    simp [ih hfs]

theorem fillCoeffs_rel {V : (ι → α) → β → Prop} {nodes : List (List ℕ)} {m : ι → List (List ℕ × α)} {m' : List (List ℕ × β)}
    (h : RL (RP RE V) m m') {j : ℕ} {b : ι → List α} {b' : List β} (hb : RL V b b') :
    RO l (RL V) (fun n => Poly.fillCoeffs nodes (m n) j (b n)) (Poly.fillCoeffs nodes m' j b') := by
  induction m' generalizing m j b b' with
  | nil => rw [h.nil_inv]; exact RO.some hb
  | cons y ys ih =>
    obtain ⟨f, fs, rfl, ⟨c, a, rfl, hc, ha⟩, hfs⟩ := h.cons_inv
    have hc : c = fun _ => y.1 := hc
    subst hc
    simp only [Poly.fillCoeffs]
    exact RO.bindConst fun j' => RO.bind (hb.wr ha _) fun b b' hb => ih hfs hb

end lists

variable {ι : Type} {l : Filter ι} {K F : Type} [Field F] {A : ι → Arith K} {V : (ι → K) → F → Prop} {D : F → Prop}

theorem polyMk_rel (hS : Sound A V D) {srt : List (List (List ℕ)) → List (List (List ℕ))} {nv : ℕ} {c : ι → List K} {c' : List F}
    (hc : RL V c c') {monos : List (List ℕ)} :
    RO l (RPoly V) (fun n => polyMk? (A := A n) srt nv (c n) monos) (Poly.Poly.mk? srt nv c' monos) := by
  unfold polyMk? Poly.Poly.mk?
  refine RO.bind (buildMap_rel hc monos) fun m m' hm => ?_
  simp only [keys_eq hm]
  refine RO.bindConst fun st => RO.bindConst fun es => RO.bind (fillCoeffs_rel hm (RL.zeros hS _)) fun nc nc' hnc => RO.pure ?_
  exact ⟨fun _ => rfl, fun _ => rfl, hnc, RL.zeros hS _, RL.zeros hS _⟩

theorem mlpMk_rel (hS : Sound A V D) {shape : List ℕ} {w : ι → List (List K)} {w' : List (List F)} (hw : RL (RL V) w w') {c : ι → K} {c' : F}
    (hc : V c c') :
    RO l (RMLP V) (fun n => mlpMk? (A := A n) shape (w n) (c n)) (MLP.MLP.mk? shape w' c') := by
  unfold mlpMk? MLP.MLP.mk?
  refine RO.bindConst fun last => RO.pure ?_
  have h : ∀ k : ℕ → ℕ, RL (RL V) (fun n => letI := A n; shape.map fun m => List.replicate (k m) (0 : K)) (shape.map fun m => List.replicate (k m) 0) :=
    fun k => RL.map (xs := fun _ => shape) (R := RE) RL.const fun a b _ hab => by
      have hab : a = fun _ => b := hab
      subst hab
      exact RL.zeros hS _
  exact ⟨fun _ => rfl, hw, hc, h _, h _, h _⟩

/-- Related splines with spacings `h0`. -/
structure RSpl (V : (ι → K) → F → Prop) (h0 : ι → K) (s : ι → Spline.CubicSpline K) (s' : Spline.CubicSpline F) : Prop where
  h0 : ∀ n, (s n).h = h0 n
  h : V (fun n => (s n).h) s'.h
  c : RL V (fun n => (s n).c) s'.c

/-- Related spline sets with spacings `h0`. -/
structure RSet (V : (ι → K) → F → Prop) (h0 : ι → K) (s : ι → Spline.SplineSet K) (s' : Spline.SplineSet F) : Prop where
  h0 : ∀ n, (s n).h = h0 n
  h : V (fun n => (s n).h) s'.h
  num_nodes : ∀ n, (s n).num_nodes = s'.num_nodes
  num_splines : ∀ n, (s n).num_splines = s'.num_splines
  c : RL V (fun n => (s n).c) s'.c

theorem Sound.litN (hS : Sound A V D) (q : ℕ) [q.AtLeastTwo] : V (fun n => (A n).lit (OfNat.ofNat q)) (OfNat.ofNat q) := by
  have := hS.lit (OfNat.ofNat q)
  rwa [Rat.cast_ofNat] at this

theorem Sound.litM3 (hS : Sound A V D) : V (fun n => (A n).lit (-3)) (-3) := by
  have := hS.lit (-3)
  rwa [Rat.cast_neg, Rat.cast_ofNat] at this

theorem splineMk_rel (hS : Sound A V D) {h : ι → K} {h' : F} (hh : V h h') (hd2 : D (h' * h')) (hd3 : D (h' * h' * h')) {v d : ι → List K} {v' d' : List F}
    (hv : RL V v v') (hd : RL V d d') :
    RO l (RSpl V h) (fun n => splineMk? (A := A n) (h n) (v n) (d n)) (Spline.CubicSpline.mk? h' v' d') := by
  unfold splineMk? Spline.CubicSpline.mk?
  refine RO.map (R := RL V) ?_ fun c c' hc => ⟨fun _ => rfl, hh, hc⟩
  unfold generateCoefficients Spline.generateCoefficients
  simp only [hv.length]
  refine RO.ite RO.none (RO.loop (fun i c c' hc => ?_) (RL.zeros hS _))
  unfold genBody Spline.genBody
  have l2 := hS.litN 2
  have l3 := hS.litN 3
  have l4 := hS.litM3
  rel

theorem setMk_rel (hS : Sound A V D) {h : ι → K} {h' : F} (hh : V h h') (hd2 : D (h' * h')) (hd3 : D (h' * h' * h')) {v d : ι → List (List K)}
    {v' d' : List (List F)} (hv : RL (RL V) v v') (hd : RL (RL V) d d') :
    RO l (RSet V h) (fun n => setMk? (A := A n) (h n) (v n) (d n)) (Spline.SplineSet.mk? h' v' d') := by
  have e1 : ∀ n, setMk? (A := A n) (h n) (v n) (d n) = letI := A n; (v n)[0]? >>= fun v0 => if v0.length = 0 then none
      else (loop (v0.length - 1) (fun i => loop (v n).length (setBody (h n) (v n) (d n) (v n).length i))
        (List.replicate (4 * (v n).length * (v0.length - 1)) 0)).map (fun c => ⟨h n, v0.length, (v n).length, c⟩) := by
    intro n; unfold setMk?; cases (v n)[0]? <;> rfl
  have e2 : Spline.SplineSet.mk? h' v' d' = v'[0]? >>= fun v0 => if v0.length = 0 then none
      else (loop (v0.length - 1) (fun i => loop v'.length (Spline.setBody h' v' d' v'.length i))
        (List.replicate (4 * v'.length * (v0.length - 1)) 0)).map (fun c => ⟨h', v0.length, v'.length, c⟩) := by
    unfold Spline.SplineSet.mk?; cases v'[0]? <;> rfl
  simp only [e1, e2, hv.length]
  refine RO.bind (hv.get 0) fun v0 v0' hv0 => ?_
  simp only [hv0.length]
  refine RO.ite RO.none (RO.map (R := RL V) (RO.loop (fun i c c' hc => RO.loop (fun j c c' hc => ?_) hc) (RL.zeros hS _)) fun c c' hc => ?_)
  · unfold setBody Spline.setBody
    have l2 := hS.litN 2
    have l3 := hS.litN 3
    have l4 := hS.litM3
    rel
  · exact ⟨fun _ => rfl, hh, fun _ => rfl, fun _ => rfl, hc⟩

/-! ## The file -/

section file
variable {A : ι → Arith K} {V : (ι → K) → ℝ → Prop} {D : ℝ → Prop} {φ : ι → ℝ → K} {sph : ι → K → K → K → ℕ → K}
  {dsph : ι → K → K → K → ℕ → ℕ → K} {nrm : ι → K} {sph' : ℝ → ℝ → ℝ → ℕ → ℝ} {dsph' : ℝ → ℝ → ℝ → ℕ → ℕ → ℝ}

/-- The harmonics are related at the bond vectors. -/
structure RSph (V : (ι → K) → ℝ → Prop) (sph : ι → K → K → K → ℕ → K) (dsph : ι → K → K → K → ℕ → ℕ → K)
    (sph' : ℝ → ℝ → ℝ → ℕ → ℝ) (dsph' : ℝ → ℝ → ℝ → ℕ → ℕ → ℝ) (L E : ℕ) (X : ℕ → ℕ → ℝ) : Prop where
  val : ∀ e < E, ∀ a b c, ∀ lm < (L + 1) * (L + 1), V a (X e 2) → V b (X e 0) → V c (X e 1) →
    V (fun n => sph n (a n) (b n) (c n) lm) (sph' (X e 2) (X e 0) (X e 1) lm)
  der : ∀ e < E, ∀ a b c, ∀ i < 3, ∀ lm < (L + 1) * (L + 1), V a (X e 2) → V b (X e 0) → V c (X e 1) →
    V (fun n => dsph n (a n) (b n) (c n) i lm) (dsph' (X e 2) (X e 0) (X e 1) i lm)

/-- Related objects after loading. -/
structure RLoaded (A : ι → Arith K) (V : (ι → K) → ℝ → Prop) (D : ℝ → Prop) (φ : ι → ℝ → K) (f : MACE.File) (sph : ι → K → K → K → ℕ → K)
    (dsph : ι → K → K → K → ℕ → ℕ → K) (sph' : ℝ → ℝ → ℝ → ℕ → ℝ) (dsph' : ℝ → ℝ → ℝ → ℕ → ℕ → ℝ) (P : ι → MACE.Params K)
    (P' : MACE.Params ℝ) : Prop where
  params : ∀ E X, RSph V sph dsph sph' dsph' f.lmax E X → RParams A V D E X P P'
  s0 : RL (RSet V (fun n => φ n f.splH)) (fun n => (P n).splSet0) P'.splSet0
  s1 : RL (RSet V (fun n => φ n f.splH)) (fun n => (P n).splSet1) P'.splSet1
  a0 : RL (RSpl V (fun n => φ n f.A0h)) (fun n => (P n).A0splines) P'.A0splines
  a1 : RL (RSpl V (fun n => φ n f.A1h)) (fun n => (P n).A1splines) P'.A1splines

theorem conv1 (hφ : ∀ x, V (fun n => φ n x) x) (xs : List ℝ) : RL V (fun n => xs.map (φ n)) xs := by
  have h : RL V (fun n => xs.map (φ n)) (xs.map id) := RL.map (xs := fun _ => xs) (R := RE) RL.const fun a b _ hab => by
    have hab : a = fun _ => b := hab
    subst hab
    exact hφ b
  rwa [List.map_id] at h

theorem conv2 (hφ : ∀ x, V (fun n => φ n x) x) (xs : List (List ℝ)) : RL (RL V) (fun n => xs.map (·.map (φ n))) xs := by
  have h : RL (RL V) (fun n => xs.map (·.map (φ n))) (xs.map id) := RL.map (xs := fun _ => xs) (R := RE) RL.const fun a b _ hab => by
    have hab : a = fun _ => b := hab
    subst hab
    exact conv1 hφ b
  rwa [List.map_id] at h

theorem conv3 (hφ : ∀ x, V (fun n => φ n x) x) (xs : List (List (List ℝ))) : RL (RL (RL V)) (fun n => xs.map (·.map (·.map (φ n)))) xs := by
  have h : RL (RL (RL V)) (fun n => xs.map (·.map (·.map (φ n)))) (xs.map id) := RL.map (xs := fun _ => xs) (R := RE) RL.const fun a b _ hab => by
    have hab : a = fun _ => b := hab
    subst hab
    exact conv2 hφ b
  rwa [List.map_id] at h

theorem load_rel (hS : Sound A V D) (he : RExp A V D Real.exp) (hφ : ∀ x, V (fun n => φ n x) x)
    (hn : V (fun n => nrm n) (2 * Real.sqrt Real.pi)) {f : MACE.File} (hd : D (f.splH * f.splH) ∧ D (f.splH * f.splH * f.splH))
    (hd0 : f.A0scaled = true → D (f.A0h * f.A0h) ∧ D (f.A0h * f.A0h * f.A0h))
    (hd1 : f.A1scaled = true → D (f.A1h * f.A1h) ∧ D (f.A1h * f.A1h * f.A1h))
    {srt : List (List (List ℕ)) → List (List (List ℕ))} :
    RO l (RP (RLoaded A V D φ f sph dsph sph' dsph') (RState V)) (fun n => load (A := A n) srt (φ n) (sph n) (dsph n) (nrm n) f)
      (MACE.load srt sph' dsph' f) := by
  unfold load MACE.load
  refine RO.bind (R := RL (RSet V (fun n => φ n f.splH))) (RO.pushLoop (fun i _ => ?_) RL.nil) fun S0 S0' hS0 => ?_
  · exact RO.bindConst fun v => RO.bindConst fun d => setMk_rel hS (hφ _) hd.1 hd.2 (conv2 hφ v) (conv2 hφ d)
  refine RO.bind (R := RL (RSet V (fun n => φ n f.splH))) (RO.pushLoop (fun i _ => ?_) RL.nil) fun S1 S1' hS1 => ?_
  · exact RO.bindConst fun v => RO.bindConst fun d => setMk_rel hS (hφ _) hd.1 hd.2 (conv2 hφ v) (conv2 hφ d)
  refine RO.bind (R := RL (RSpl V (fun n => φ n f.A0h))) ?_ fun A0 A0' hA0 => ?_
  · by_cases h : f.A0scaled
    · simp only [if_pos h]
      exact RO.pushLoop (fun i _ => RO.bindConst fun v => RO.bindConst fun d =>
        splineMk_rel hS (hφ _) (hd0 h).1 (hd0 h).2 (conv1 hφ v) (conv1 hφ d)) RL.nil
    · simp only [if_neg h]; exact RO.some RL.nil
  refine RO.bind (R := RL (RPoly V)) (RO.loop (fun a b b' hb => RO.loop (fun lm b b' hb => RO.pushLoop (fun k _ =>
    polyMk_rel hS (conv1 hφ _)) hb) hb) RL.nil) fun P0 P0' hP0 => RO.bindConst fun nl => ?_
  refine RO.bind (R := RL (RSpl V (fun n => φ n f.A1h))) ?_ fun A1 A1' hA1 => ?_
  · by_cases h : f.A1scaled
    · simp only [if_pos h]
      exact RO.pushLoop (fun i _ => RO.bindConst fun v => RO.bindConst fun d =>
        splineMk_rel hS (hφ _) (hd1 h).1 (hd1 h).2 (conv1 hφ v) (conv1 hφ d)) RL.nil
    · simp only [if_neg h]; exact RO.some RL.nil
  refine RO.bind (R := RL (RPoly V)) (RO.loop (fun a b b' hb => RO.pushLoop (fun k _ => polyMk_rel hS (conv1 hφ _)) hb) RL.nil)
    fun P1 P1' hP1 => ?_
  refine RO.bind (R := RMLP V) (mlpMk_rel hS (RL.cons (conv1 hφ _) (RL.cons (conv1 hφ _) RL.nil)) (hφ _)) fun ro ro' hro => RO.pure (RP.mk ?_ ?_)
  · refine ⟨fun E X hX => ?_, hS0, hS1, hA0, hA1⟩
    exact { C := fun _ => rfl, lmax := fun _ => rfl, Lmax := fun _ => rfl, atomicNumbers := fun _ => rfl, atomicEnergies := conv1 hφ _
            splSet0 := hS0.mono fun _ _ _ h => h.num_splines, splSet1 := hS1.mono fun _ _ _ h => h.num_splines, H0w := conv1 hφ _
            A0w := conv3 hφ _, A0scaled := fun _ => rfl, H1w := conv1 hφ _, phil := fun _ => rfl, phil1 := fun _ => rfl, phil2 := fun _ => rfl
            philme := fun _ => rfl, cg := conv1 hφ _, philelm := fun _ => rfl, numLelm := fun _ => rfl, numLme := fun _ => rfl
            A1w := conv2 hφ _, A1scaled := fun _ => rfl, H2wH1 := conv2 hφ _, H2wM1 := conv1 hφ _, ro1 := conv1 hφ _
            sph := hX.val, dsph := hX.der, nrm := hn, ex := he }
  · exact { nodeEnergies := RL.nil, nodeForces := RL.nil, R0 := RL.nil, R0d := RL.nil, R1 := RL.nil, R1d := RL.nil, Y := RL.nil
            Yg := RL.nil, xyzs := RL.nil, A0 := RL.nil, A0a := RL.nil, M0 := RL.nil, M0g := RL.nil, M0a := RL.nil, H1 := RL.nil
            H1a := RL.nil, Phi1r := RL.nil, dPhi1r := RL.nil, Phi1 := RL.nil, dPhi1 := RL.nil, A1 := RL.nil, A1a := RL.nil
            M1 := RL.nil, M1g := RL.nil, M1a := RL.nil, H2 := RL.nil, H2a := RL.nil, P0 := hP0, P1 := hP1, ro2 := hro }

end file

end Verif.Num
