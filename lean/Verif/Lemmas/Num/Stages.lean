import Verif.Lemmas.Num.Blocks
import Verif.Lemmas.MACE.Radial

/-!
# Families of runs: the stages of the evaluator
-/

namespace Verif.Num
open Filter

variable {ι : Type} {l : Filter ι} {K F : Type} [Field F] {A : ι → Arith K} {V : (ι → K) → F → Prop} {D : F → Prop}

/-- Related parameters; `X e` are the bond vectors of the exact run. -/
structure RParams (A : ι → Arith K) (V : (ι → K) → F → Prop) (D : F → Prop) (E : ℕ) (X : ℕ → ℕ → F) (P : ι → MACE.Params K)
    (P' : MACE.Params F) : Prop where
  C : ∀ n, (P n).C = P'.C
  lmax : ∀ n, (P n).lmax = P'.lmax
  Lmax : ∀ n, (P n).Lmax = P'.Lmax
  atomicNumbers : ∀ n, (P n).atomicNumbers = P'.atomicNumbers
  atomicEnergies : RL V (fun n => (P n).atomicEnergies) P'.atomicEnergies
  splSet0 : RL (fun s s' => ∀ n, (s n).num_splines = s'.num_splines) (fun n => (P n).splSet0) P'.splSet0
  splSet1 : RL (fun s s' => ∀ n, (s n).num_splines = s'.num_splines) (fun n => (P n).splSet1) P'.splSet1
  H0w : RL V (fun n => (P n).H0w) P'.H0w
  A0w : RL (RL (RL V)) (fun n => (P n).A0w) P'.A0w
  A0scaled : ∀ n, (P n).A0scaled = P'.A0scaled
  H1w : RL V (fun n => (P n).H1w) P'.H1w
  phil : ∀ n, (P n).phil = P'.phil
  phil1 : ∀ n, (P n).phil1 = P'.phil1
  phil2 : ∀ n, (P n).phil2 = P'.phil2
  philme : ∀ n, (P n).philme = P'.philme
  cg : RL V (fun n => (P n).cg) P'.cg
  philelm : ∀ n, (P n).philelm = P'.philelm
  numLelm : ∀ n, (P n).numLelm = P'.numLelm
  numLme : ∀ n, (P n).numLme = P'.numLme
  A1w : RL (RL V) (fun n => (P n).A1w) P'.A1w
  A1scaled : ∀ n, (P n).A1scaled = P'.A1scaled
  H2wH1 : RL (RL V) (fun n => (P n).H2wH1) P'.H2wH1
  H2wM1 : RL V (fun n => (P n).H2wM1) P'.H2wM1
  ro1 : RL V (fun n => (P n).ro1) P'.ro1
  sph : ∀ e < E, ∀ a b c, ∀ lm < P'.M, V a (X e 2) → V b (X e 0) → V c (X e 1) →
    V (fun n => (P n).sph (a n) (b n) (c n) lm) (P'.sph (X e 2) (X e 0) (X e 1) lm)
  dsph : ∀ e < E, ∀ a b c, ∀ i < 3, ∀ lm < P'.M, V a (X e 2) → V b (X e 0) → V c (X e 1) →
    V (fun n => (P n).dsph (a n) (b n) (c n) i lm) (P'.dsph (X e 2) (X e 0) (X e 1) i lm)
  nrm : V (fun n => (P n).nrm) P'.nrm
  ex : RExp A V D P'.ex

/-- Related arguments. -/
structure RGraph (V : (ι → K) → F → Prop) (D : F → Prop) (E : ℕ) (X : ℕ → ℕ → F) (g : ι → MACE.Graph K) (g' : MACE.Graph F) : Prop where
  N : ∀ n, (g n).N = g'.N
  types : ∀ n, (g n).types = g'.types
  nn : ∀ n, (g n).nn = g'.nn
  idx : ∀ n, (g n).idx = g'.idx
  ntypes : ∀ n, (g n).ntypes = g'.ntypes
  xyz : RL V (fun n => (g n).xyz) g'.xyz
  r : RL V (fun n => (g n).r) g'.r
  xyz_eq : g'.xyz = tab2 E 3 X
  pos : ∀ (ij : ℕ) (r : F), g'.r[ij]? = some r → D r

/-- Related states. -/
structure RState (V : (ι → K) → F → Prop) (s : ι → MACE.State K) (s' : MACE.State F) : Prop where
  nodeEnergies : RL V (fun n => (s n).nodeEnergies) s'.nodeEnergies
  nodeForces : RL V (fun n => (s n).nodeForces) s'.nodeForces
  R0 : RL V (fun n => (s n).R0) s'.R0
  R0d : RL V (fun n => (s n).R0d) s'.R0d
  R1 : RL V (fun n => (s n).R1) s'.R1
  R1d : RL V (fun n => (s n).R1d) s'.R1d
  Y : RL V (fun n => (s n).Y) s'.Y
  Yg : RL V (fun n => (s n).Yg) s'.Yg
  xyzs : RL V (fun n => (s n).xyzs) s'.xyzs
  A0 : RL V (fun n => (s n).A0) s'.A0
  A0a : RL V (fun n => (s n).A0a) s'.A0a
  M0 : RL V (fun n => (s n).M0) s'.M0
  M0g : RL V (fun n => (s n).M0g) s'.M0g
  M0a : RL V (fun n => (s n).M0a) s'.M0a
  H1 : RL V (fun n => (s n).H1) s'.H1
  H1a : RL V (fun n => (s n).H1a) s'.H1a
  Phi1r : RL V (fun n => (s n).Phi1r) s'.Phi1r
  dPhi1r : RL V (fun n => (s n).dPhi1r) s'.dPhi1r
  Phi1 : RL V (fun n => (s n).Phi1) s'.Phi1
  dPhi1 : RL V (fun n => (s n).dPhi1) s'.dPhi1
  A1 : RL V (fun n => (s n).A1) s'.A1
  A1a : RL V (fun n => (s n).A1a) s'.A1a
  M1 : RL V (fun n => (s n).M1) s'.M1
  M1g : RL V (fun n => (s n).M1g) s'.M1g
  M1a : RL V (fun n => (s n).M1a) s'.M1a
  H2 : RL V (fun n => (s n).H2) s'.H2
  H2a : RL V (fun n => (s n).H2a) s'.H2a
  P0 : RL (RPoly V) (fun n => (s n).P0) s'.P0
  P1 : RL (RPoly V) (fun n => (s n).P1) s'.P1
  ro2 : RMLP V (fun n => (s n).ro2) s'.ro2

/-- Edge `ij` of node `i` with the types of both ends. -/
def EdgeOf (g' : MACE.Graph F) (ti ij tj : ℕ) : Prop :=
  ∃ i < g'.N, ∃ k, g'.types[i]? = some ti ∧ g'.nn[i]? = some k ∧ off g'.nn i ≤ ij ∧ ij < off g'.nn i + k ∧ g'.ntypes[ij]? = some tj

/-- A state with the running edge counter at node `i`. -/
def RC {α β : Type} (nn : List ℕ) (i : ℕ) (R : (ι → α) → β → Prop) (q : ι → ℕ × α) (q' : ℕ × β) : Prop := q'.1 = off nn i ∧ RP RE R q q'

theorem RC.elim {α β : Type} {nn : List ℕ} {i : ℕ} {R : (ι → α) → β → Prop} {q : ι → ℕ × α} {q' : ℕ × β} (h : RC nn i R q q') :
    ∃ a b, q = (fun n => (off nn i, a n)) ∧ q' = (off nn i, b) ∧ R a b := by
  obtain ⟨h1, h2⟩ := h
  obtain ⟨a, rfl, h3⟩ := h2.counter
  refine ⟨a, q'.2, by rw [h1], ?_, h3⟩
  rw [← h1]

theorem RC.next {α β : Type} {nn : List ℕ} {i k : ℕ} {R : (ι → α) → β → Prop} (hk : nn[i]? = some k) {q : ι → ℕ × α} {q' : ℕ × β}
    (h : q'.1 = off nn i + k ∧ RP RE R q q') : RC nn (i + 1) R q q' := ⟨by rw [h.1, off_succ hk], h.2⟩

theorem RC.zero {α β : Type} {nn : List ℕ} {R : (ι → α) → β → Prop} {a : ι → α} {b : β} (h : R a b) : RC nn 0 R (fun n => (0, a n)) (0, b) :=
  ⟨by simp [off_zero], RP.mk rfl h⟩

/-! ## Radial functions -/

section radial
variable [LinearOrder F] [IsStrictOrderedRing F] [FloorRing F]

/-- The evaluations of a spline set agree on the edges. -/
def REvalSet (l : Filter ι) (A : ι → Arith K) (V : (ι → K) → F → Prop) (nE : ℕ) (g : ι → MACE.Graph K) (g' : MACE.Graph F)
    (spl : ι → List (Spline.SplineSet K)) (spl' : List (Spline.SplineSet F)) : Prop :=
  ∀ ti ij tj, EdgeOf g' ti ij tj → ∀ (s : ι → Spline.SplineSet K) (s' : Spline.SplineSet F) (r : ι → K) (r' : F),
    (∀ n, (spl n)[MACE.pairIndex nE ti tj]? = some (s n)) → spl'[MACE.pairIndex nE ti tj]? = some s' →
    (∀ n, (g n).r[ij]? = some (r n)) → g'.r[ij]? = some r' → ∀ base (st : ι → Bufs Bool K) (st' : Bufs Bool F), RB V st st' →
    RO l (RB V) (fun n => setDerivs (A := A n) (s n) (r n) base (st n)) (s'.evaluateDerivs r' base st')

variable {E : ℕ} {X : ℕ → ℕ → F} {g : ι → MACE.Graph K} {g' : MACE.Graph F}

theorem radial_rel (hS : Sound A V D) (hg : RGraph V D E X g g') {nE : ℕ} {spl : ι → List (Spline.SplineSet K)}
    {spl' : List (Spline.SplineSet F)} (hs : RL (fun s s' => ∀ n, (s n).num_splines = s'.num_splines) spl spl')
    (he : REvalSet l A V nE g g' spl spl') {R Rd : ι → List K} {R' Rd' : List F} (hR : RL V R R') (hRd : RL V Rd Rd') :
    RO l (RP (RL V) (RL V)) (fun n => radial (A := A n) nE (spl n) (g n) (R n) (Rd n)) (MACE.radial nE spl' g' R' Rd') := by
  unfold radial MACE.radial
  refine RO.bind (hs.get _) fun s0 s0' hs0 => ?_
  simp only [hs0, hg.N, hg.types, hg.nn, hg.ntypes, hg.r.length]
  have hR2 := hR.resize hS (g'.r.length * s0'.num_splines)
  simp only [hR2.length]
  have hRd2 := hRd.resize hS (resize R' (g'.r.length * s0'.num_splines)).length
  refine RO.bind (RO.loop' (fun i => RC g'.nn i (RB V)) (RC.zero (fun b => ?_)) (fun i hi q q' hq => ?_)) fun q q' hq => ?_
  · cases b
    · exact hR2
    · exact hRd2
  · obtain ⟨a, b, rfl, rfl, hab⟩ := hq.elim
    refine RO.bindConst' fun ti hti => RO.bindConst' fun k hk => ?_
    refine (RO.edgesFrom (R := RB V) (fun j hj st st' hst => ?_) hab).mono fun _ _ _ h => RC.next hk h
    refine RO.bindConst' fun tj htj => ?_
    refine RO.bindGet hs fun s s' h1 h2 _ => RO.bindGet hg.r fun r r' h3 h4 _ => ?_
    exact he ti _ tj ⟨i, hi, k, hti, hk, by omega, by omega, htj⟩ s s' r r' h1 h2 h3 h4 _ st st' hst
  · exact RO.pure (RP.mk (hq.2.snd false) (hq.2.snd true))

variable {P : ι → MACE.Params K} {P' : MACE.Params F} {s : ι → MACE.State K} {s' : MACE.State F}

theorem computeR0_rel (hS : Sound A V D) (hP : RParams A V D E X P P') (hg : RGraph V D E X g g')
    (he : REvalSet l A V P'.atomicNumbers.length g g' (fun n => (P n).splSet0) P'.splSet0) (hs : RState V s s') :
    RO l (RState V) (fun n => computeR0 (A := A n) (P n) (g n) (s n)) (MACE.computeR0 P' g' s') := by
  unfold computeR0 MACE.computeR0
  simp only [hP.atomicNumbers]
  exact RO.bind (radial_rel hS hg hP.splSet0 he hs.R0 hs.R0d) fun q q' hq => RO.pure { hs with R0 := hq.fst, R0d := hq.snd }

theorem computeR1_rel (hS : Sound A V D) (hP : RParams A V D E X P P') (hg : RGraph V D E X g g')
    (he : REvalSet l A V P'.atomicNumbers.length g g' (fun n => (P n).splSet1) P'.splSet1) (hs : RState V s s') :
    RO l (RState V) (fun n => computeR1 (A := A n) (P n) (g n) (s n)) (MACE.computeR1 P' g' s') := by
  unfold computeR1 MACE.computeR1
  simp only [hP.atomicNumbers]
  exact RO.bind (radial_rel hS hg hP.splSet1 he hs.R1 hs.R1d) fun q q' hq => RO.pure { hs with R1 := hq.fst, R1d := hq.snd }

end radial

section stages
variable {E : ℕ} {X : ℕ → ℕ → F} {g : ι → MACE.Graph K} {g' : MACE.Graph F} {P : ι → MACE.Params K} {P' : MACE.Params F}
  {s : ι → MACE.State K} {s' : MACE.State F}

theorem RParams.M (hP : RParams A V D E X P P') (n : ι) : (P n).M = P'.M := by simp [MACE.Params.M, hP.lmax]
theorem RParams.LM (hP : RParams A V D E X P P') (n : ι) : (P n).LM = P'.LM := by simp [MACE.Params.LM, hP.Lmax]

/-! ## Harmonics -/

theorem shuffle_rel {num : ℕ} {x b : ι → List K} {x' b' : List F} (hx : RL V x x') (hb : RL V b b') :
    RO l (RL V) (fun n => shuffle num (x n) (b n)) (MACE.shuffle num x' b') := by
  unfold shuffle MACE.shuffle
  rel

theorem scaleAll_rel (hS : Sound A V D) {c : ι → K} {c' : F} (hc : V c c') {b : ι → List K} {b' : List F} (hb : RL V b b') :
    RO l (RL V) (fun n => scaleAll (A := A n) (c n) (b n)) (MACE.scaleAll c' b') := by
  unfold scaleAll MACE.scaleAll
  simp only [hb.length]
  rel

theorem unshuffle_rel {M num : ℕ} {x b : ι → List K} {x' b' : List F} (hx : RL V x x') (hb : RL V b b') :
    RO l (RL V) (fun n => unshuffle M num (x n) (b n)) (MACE.unshuffle M num x' b') := by
  unfold unshuffle MACE.unshuffle
  rel

theorem sphValues_rel (hP : RParams A V D E X P P') {M num : ℕ} (hM : M = P'.M) (hn : num ≤ E) {sh b : ι → List K} {b' : List F}
    (hsh : RL V sh (tab2 num 3 (fun e => MACE.shuf (X e)))) (hb : RL V b b') :
    RO l (RL V) (fun n => sphValues M (P n).sph num (sh n) (b n)) (MACE.sphValues M P'.sph num (tab2 num 3 (fun e => MACE.shuf (X e))) b') := by
  unfold sphValues MACE.sphValues
  refine RO.loop' (fun _ => RL V) hb fun i hi b b' hb => RO.loop' (fun _ => RL V) hb fun lm hlm b b' hb => ?_
  have r : ∀ a < 3, (tab2 num 3 (fun e => MACE.shuf (X e)))[3 * i + a]? = some (MACE.shuf (X i) a) := fun a ha => by
    rw [mul_comm 3, getElem?_tab2 hi ha]
  refine RO.bind' (hsh.get _) fun x x' ex hx => RO.bind' (hsh.get _) fun y y' ey hy => RO.bind' (hsh.get _) fun z z' ez hz => ?_
  have e0 := r 0 (by omega)
  rw [add_zero, ex] at e0
  rw [r 1 (by omega)] at ey
  rw [r 2 (by omega)] at ez
  cases e0; cases ey; cases ez
  exact hb.wr (hP.sph i (by omega) _ _ _ lm (hM ▸ hlm) hx hy hz) _

theorem sphGrads_rel (hP : RParams A V D E X P P') {M num : ℕ} (hM : M = P'.M) (hn : num ≤ E) {sh b : ι → List K} {b' : List F}
    (hsh : RL V sh (tab2 num 3 (fun e => MACE.shuf (X e)))) (hb : RL V b b') :
    RO l (RL V) (fun n => sphGrads M (P n).dsph num (sh n) (b n)) (MACE.sphGrads M P'.dsph num (tab2 num 3 (fun e => MACE.shuf (X e))) b') := by
  unfold sphGrads MACE.sphGrads
  refine RO.loop' (fun _ => RL V) hb fun i hi b b' hb => RO.loop' (fun _ => RL V) hb fun c hc b b' hb =>
    RO.loop' (fun _ => RL V) hb fun lm hlm b b' hb => ?_
  have r : ∀ a < 3, (tab2 num 3 (fun e => MACE.shuf (X e)))[3 * i + a]? = some (MACE.shuf (X i) a) := fun a ha => by
    rw [mul_comm 3, getElem?_tab2 hi ha]
  refine RO.bind' (hsh.get _) fun x x' ex hx => RO.bind' (hsh.get _) fun y y' ey hy => RO.bind' (hsh.get _) fun z z' ez hz => ?_
  have e0 := r 0 (by omega)
  rw [add_zero, ex] at e0
  rw [r 1 (by omega)] at ey
  rw [r 2 (by omega)] at ez
  cases e0; cases ey; cases ez
  exact hb.wr (hP.dsph i (by omega) _ _ _ c hc lm (hM ▸ hlm) hx hy hz) _

theorem computeY_rel (hS : Sound A V D) (hP : RParams A V D E X P P') (hg : RGraph V D E X g g') (hs : RState V s s') :
    RO l (RState V) (fun n => computeY (A := A n) (P n) (g n) (s n)) (MACE.computeY P' g' s') := by
  unfold computeY MACE.computeY
  simp only [hg.xyz.length, hP.M]
  by_cases h0 : g'.xyz.length = 0
  · simp only [if_pos h0]; exact RO.some hs
  simp only [if_neg h0]
  have hl : g'.xyz.length / 3 = E := by rw [hg.xyz_eq, length_tab2]; omega
  simp only [hl]
  have hx := hg.xyz
  rw [hg.xyz_eq] at hx ⊢
  refine RO.bind' (shuffle_rel hx (hs.xyzs.resize hS _)) fun sh sh' esh hsh => ?_
  rw [MACE.shuffle_spec X (by simp)] at esh
  cases esh
  refine RO.bind (sphValues_rel hP rfl le_rfl hsh (hs.Y.resize hS _)) fun Y Y' hY => ?_
  refine RO.bind (sphGrads_rel hP rfl le_rfl hsh (hs.Yg.resize hS _)) fun Yg Yg' hYg => ?_
  refine RO.bind (scaleAll_rel hS hP.nrm hY) fun Y Y' hY => RO.bind (scaleAll_rel hS hP.nrm hYg) fun Yg Yg' hYg => ?_
  exact RO.bind (unshuffle_rel hYg hYg) fun Yg Yg' hYg => RO.pure { hs with Y := hY, Yg := hYg, xyzs := hsh }

end stages

end Verif.Num
