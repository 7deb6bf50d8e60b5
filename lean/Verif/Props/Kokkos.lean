import Verif.Lemmas.Kokkos.Compute
import Verif.Lemmas.MACE.LoadSpec
import Verif.Props.MACEExample

/-!
# Properties of the Kokkos evaluator (C49 - C51, C62)

`Kokkos.load` is `MACEKokkos::load_from_json`; `FileOkK` is what it needs of the file beyond `FileOk`.  An environment `V` fixes what
Kokkos leaves open in one call: for every kernel launch some interleaving of its threads, the blocks of the scans, the content of
uninitialised memory.
-/

namespace Verif.Props
open Verif.MACE Verif.Spec Verif.Spline Verif.Par

variable {f : File} {ne : ℕ} {sph : ℝ → ℝ → ℝ → ℕ → ℝ} {dsph : ℝ → ℝ → ℝ → ℕ → ℕ → ℝ}
  {srt : List (List (List ℕ)) → List (List (List ℕ))} {junk : ℕ → ℕ → ℝ}

/-- States of the object after calls with well-formed inputs of any sizes, each in some environment. -/
inductive HistK (f : File) (P : Kokkos.Params ℝ) : Kokkos.State ℝ → Prop
  | init : HistK f P (Kokkos.State.init ℝ)
  | call {V : Kokkos.Env ℝ} {s s' : Kokkos.State ℝ} {T : Sys} {X : ℕ → ℕ → ℝ} : HistK f P s → SysOk f T → Inside f T X →
      Kokkos.compute V P f.zbl (T.graph X) s = some s' → HistK f P s'

theorem HistK.ok (hf : FileOk f) {P : Kokkos.Params ℝ} (hP : Kokkos.LoadedK f sph dsph P) {s : Kokkos.State ℝ} (h : HistK f P s) :
    Kokkos.StOkK f P s := by
  induction h with
  | init => exact Kokkos.init_ok f P
  | @call V _ _ _ _ _ hT hX e ih =>
    obtain ⟨s', h1, h2, -⟩ := Kokkos.compute_spec V hf hT hP hX ih
    rw [h1] at e
    cases e
    exact h2

/-- The container holds `x` followed by zeros. -/
def ZeroPadded (v : View ℝ) (x : List ℝ) : Prop :=
  v.ext = [v.data.length] ∧ x.length ≤ v.data.length ∧
    ∀ p < v.data.length, v.data[p]? = if p < x.length then x[p]? else some 0

theorem zeroPadded_of {v : View ℝ} {n : ℕ} {g h : ℕ → ℝ} (hv : Kokkos.All v n g) (hg : ∀ p, g p = if p < n then h p else 0) :
    ZeroPadded v (tab n h) := by
  obtain ⟨h1, x, h2, h3, h4⟩ := hv
  have hx : v.data.length = x := by
    have : v.data.length = v.ext.prod := h1
    rw [this, h2]; simp
  refine ⟨by rw [h2, hx], by simp [tab, hx, h3], fun p hp => ?_⟩
  have := h4 p (hx ▸ hp)
  unfold View.get at this
  rw [h2, flat_one (hx ▸ hp), Option.bind_some] at this
  rw [this, hg]
  by_cases hpn : p < n
  · simp [tab, hpn]
  · simp [tab, hpn]

theorem ZeroPadded.sum {v : View ℝ} {x : List ℝ} (h : ZeroPadded v x) : v.data.sum = x.sum := by
  obtain ⟨-, h1, h2⟩ := h
  have : v.data = x ++ List.replicate (v.data.length - x.length) 0 := by
    refine List.ext_getElem? (fun p => ?_)
    by_cases hp : p < v.data.length
    · rw [h2 p hp]
      split_ifs with hpx
      · rw [List.getElem?_append_left hpx]
      · rw [List.getElem?_append_right (by omega), List.getElem?_replicate, if_pos (by omega)]
    · rw [List.getElem?_eq_none (by omega), List.getElem?_eq_none (by simp; omega)]
  rw [this, List.sum_append]
  simp

/-- C62: on the same file and input, `MACEKokkos` and `MACE` return the same node energies and forces, for every environment and every
history of both objects; the Kokkos containers may be longer and then end in zeros. -/
theorem C62_kokkos_equals_cpu (hf : FileOk f) (hk : FileOkK f ne) (hs : Poly.SortFn srt) :
    ∃ P s0 Q, MACE.load srt sph dsph f = some (P, s0) ∧ Kokkos.load srt sph dsph junk ne f = some (Q, Kokkos.State.init ℝ) ∧
      ∀ T X, SysOk f T → Inside f T X → ∀ s, Hist f P s0 s → ∀ t, HistK f Q t → ∀ V : Kokkos.Env ℝ,
        ∃ s' t', computeNodeEnergiesForces f.zbl P (T.graph X) s = some s' ∧ Kokkos.compute V Q f.zbl (T.graph X) t = some t' ∧
          s'.nodeEnergies.length = T.N ∧ s'.nodeForces.length = 3 * T.E ∧
          ZeroPadded t'.energies s'.nodeEnergies ∧ ZeroPadded t'.forces s'.nodeForces := by
  obtain ⟨P, s0, h1, h2, h3⟩ := MACE.load_spec hf hs sph dsph
  obtain ⟨Q, k1, k2⟩ := Kokkos.load_spec hf hk hs sph dsph junk
  refine ⟨P, s0, Q, h1, k1, fun T X hT hX s hh t ht V => ?_⟩
  obtain ⟨s', a1, a2, a3, -⟩ := MACE.compute_spec hf hT h2 hX (Hist.ok hf h2 h3 hh)
  obtain ⟨t', b1, -, b2, b3⟩ := Kokkos.compute_spec V hf hT k2 hX (ht.ok hf k2)
  refine ⟨s', t', a1, b1, by simp [a2], by simp [a3, mul_comm], ?_, ?_⟩
  · rw [a2]
    exact zeroPadded_of b2 (fun p => rfl)
  · rw [a3]
    rw [show tab2 T.E 3 (forceOf f sph dsph T X) = tab (3 * T.E) (fun p => forceOf f sph dsph T X (p / 3) (p % 3)) by
      unfold tab2; rw [mul_comm]]
    refine zeroPadded_of b3 (fun p => ?_)
    show (if p / 3 < T.E then forceOf f sph dsph T X (p / 3) (p % 3) else 0) = _
    by_cases hp : p < 3 * T.E
    · rw [if_pos hp, if_pos (by omega)]
    · rw [if_neg hp, if_neg (by omega)]

/-- C51: the outputs of a call do not depend on the earlier calls (of any sizes) or on the environment, and the sum of the whole
container `node_energies` is the energy of the current system, the sum of its node energies. -/
theorem C51_grow_only_buffers (hf : FileOk f) (hk : FileOkK f ne) (hs : Poly.SortFn srt) :
    ∃ Q, Kokkos.load srt sph dsph junk ne f = some (Q, Kokkos.State.init ℝ) ∧
      ∀ T X, SysOk f T → Inside f T X → ∃ E F : List ℝ, E.length = T.N ∧ F.length = 3 * T.E ∧
        ∀ t, HistK f Q t → ∀ V : Kokkos.Env ℝ, ∃ t', Kokkos.compute V Q f.zbl (T.graph X) t = some t' ∧ HistK f Q t' ∧
          ZeroPadded t'.energies E ∧ ZeroPadded t'.forces F ∧ t'.energies.data.sum = E.sum := by
  obtain ⟨P, s0, Q, h1, h2, h3⟩ := C62_kokkos_equals_cpu (sph := sph) (dsph := dsph) (junk := junk) hf hk hs
  refine ⟨Q, h2, fun T X hT hX => ?_⟩
  have H := h3 T X hT hX s0 .init
  obtain ⟨s', _, e1, -, l1, l2, -⟩ := H _ .init (Kokkos.Env.simple ℝ)
  refine ⟨s'.nodeEnergies, s'.nodeForces, l1, l2, fun t ht V => ?_⟩
  obtain ⟨s'', t', e2, e3, -, -, z1, z2⟩ := H t ht V
  rw [e1] at e2
  cases e2
  exact ⟨t', e3, .call ht hT hX e3, z1, z2, z1.sum⟩

/-! ## The stages -/

/-- The stages of `MACE::compute_node_energies_forces` up to `compute_A0`, mace.cpp:38-40. -/
noncomputable def cpuA0 (P : Params ℝ) (g : Graph ℝ) (s : State ℝ) : Option (State ℝ) := do
  let s ← computeY P g s
  let s ← computeR0 P g s
  computeA0 P g s

/-- The stages of `MACEKokkos::compute_node_energies_forces` up to `compute_A0`, mace_kokkos.cpp:71-75. -/
noncomputable def kokkosA0 (V : Kokkos.Env ℝ) (Q : Kokkos.Params ℝ) (g : Graph ℝ) (t : Kokkos.State ℝ) : Option (View ℝ) := do
  let r0 ← Kokkos.computeR0 V Q.C Q.lmax Q.atomicNumbers.length Q.R0h Q.R0c g t.R0 t.R0d
  let y ← Kokkos.computeY V Q.M Q.sph Q.dsph Q.nrm g.xyz t.Y t.Yg t.xs t.Ygs
  Kokkos.computeA0 V Q.C Q.M g r0.1 y.1 t.A0

/-- A view of shape `(N', n, m)` and a row-major vector agree on the first `N` rows. -/
def SameRows (v : View ℝ) (x : List ℝ) (N n m : ℕ) : Prop :=
  x.length = N * n * m ∧ ∀ i < N, ∀ a < n, ∀ k < m, v.get [i, a, k] = x[(i * n + a) * m + k]?

theorem sameRows_of {v : View ℝ} {N n m : ℕ} {F : ℕ → ℕ → ℕ → ℝ} (h : Kokkos.G3 v N n m F) : SameRows v (T3 N n m F) N n m := by
  refine ⟨by simp, fun i hi a ha k hk => ?_⟩
  rw [h i hi a ha k hk]
  exact (T3_get F hi ha hk).symm

/-- C49: the folded splines of `MACEKokkos` give the `A0` of `MACE`, in every environment and for every history. -/
theorem C49_first_layer (hf : FileOk f) (hk : FileOkK f ne) (hs : Poly.SortFn srt) :
    ∃ P s0 Q, MACE.load srt sph dsph f = some (P, s0) ∧ Kokkos.load srt sph dsph junk ne f = some (Q, Kokkos.State.init ℝ) ∧
      ∀ T X, SysOk f T → Inside f T X → ∀ s t, HistK f Q t → ∀ V : Kokkos.Env ℝ,
        ∃ s' A0, cpuA0 P (T.graph X) s = some s' ∧ kokkosA0 V Q (T.graph X) t = some A0 ∧
          SameRows A0 s'.A0 T.N ((f.lmax + 1) * (f.lmax + 1)) f.numChannels := by
  obtain ⟨P, s0, h1, h2, h3⟩ := MACE.load_spec hf hs sph dsph
  obtain ⟨Q, k1, k2⟩ := Kokkos.load_spec hf hk hs sph dsph junk
  refine ⟨P, s0, Q, h1, k1, fun T X hT hX s t ht V => ?_⟩
  obtain ⟨hs1, -, -⟩ := ht.ok hf k2
  rw [graph_gx]
  have hg : GOk (gx T T.E X) f.nT (gx T T.E X).N (confOf f sph T X) (nthN T.nn) (dconfOf f dsph T X).X (dconfOf f dsph T X).R :=
    graph_ok hT le_rfl
  have hE : (gx T T.E X).Ex = (gx T T.E X).E := gx_Ex
  have hF := Kokkos.kfeat hf hT k2 hX
  have hC := feat_ok (Ex := T.E) hf hT h2 hX
  have hw := k2.wok
  obtain ⟨R0, R0d, a1, a2, a3, a4⟩ := Kokkos.computeR0_spec V hg (Kokkos.RadX.none hE) hs1.R0 hF.r0
  replace a3 := Kokkos.gl_of a3
  obtain ⟨Y, Yg, xs, Ygs, c1, c2, c3, c4, c5⟩ := Kokkos.computeY_spec V (M := (netOf f).M) (num := (gx T T.E X).E) (sph := Q.sph) (dsph := Q.dsph)
    (nrm := Q.nrm) (hg.xyz_len.trans (by rw [hE])) (fun e he a ha => hg.xyz_get' he ha) hs1.Y hs1.xs
  replace c4 : Kokkos.GF Y (gx T T.E X).E (netOf f).M (confOf f sph T X).Y := fun e he lm hlm => by rw [c4 e he lm hlm, hF.y e he lm hlm]
  obtain ⟨A0, d1, d2, d3⟩ := Kokkos.computeA0_spec V (C := (netOf f).C) (lmax := (netOf f).lmax) rfl hg a3 c4 hs1.A0
  replace d3 : Kokkos.G3 A0 (gx T T.E X).N (netOf f).M (netOf f).C (a0 (netOf f) (confOf f sph T X)) :=
    d3.congr (fun i hi lm _ k _ => (Kokkos.fold_a0 hg hi).symm)
  obtain ⟨Y', Yg', xs', e1, e2⟩ := MACE.computeY_spec h2.wok hg s
  obtain ⟨o1, o2, g1, g2, -⟩ := MACE.computeR0_spec hg hC { s with Y := Y', Yg := Yg', xyzs := xs' }
  have g3 := MACE.computeA0_spec (P := P) (s := { s with Y := Y', Yg := Yg', xyzs := xs', R0 := o1, R0d := o2 }) h2.wok hg
    (fun h => by
      refine (e2 (by rw [hE]; exact h)).1.trans (tab2_congr (fun e he lm hlm => ?_))
      exact (hC.y e he lm hlm).symm) g2
  refine ⟨_, A0, (bind_of_some e1 _).trans <| (bind_of_some g1 _).trans g3, ?_, sameRows_of d3⟩
  unfold kokkosA0
  rw [hw.C, hw.M, hw.lmax]
  exact (bind_of_some a1 _).trans <| (bind_of_some c1 _).trans d1

/-! ## Coupling tables -/

theorem loop_rel {σ τ : Type} {n : ℕ} {F : ℕ → σ → Option σ} {G : ℕ → τ → Option τ} (R : σ → τ → Prop)
    (h : ∀ i < n, ∀ s t, R s t → ∃ s' t', F i s = some s' ∧ G i t = some t' ∧ R s' t') {s : σ} {t : τ} (hR : R s t) :
    ∃ s' t', loop n F s = some s' ∧ loop n G t = some t' ∧ R s' t' := by
  induction n with
  | zero => exact ⟨s, t, rfl, rfl, hR⟩
  | succ n ih =>
    obtain ⟨s1, t1, h1, h2, h3⟩ := ih (fun i hi => h i (by omega))
    obtain ⟨s2, t2, h4, h5, h6⟩ := h n (by omega) s1 t1 h3
    exact ⟨s2, t2, (bind_of_some h1 _).trans h4, (bind_of_some h2 _).trans h5, h6⟩

/-- The terms visited by the nested loops of `MACE::compute_Phi1`: running number, path, `lm1`, `lm2`. -/
def cpuTerms {K : Type} [Field K] (P : Params K) : Option (List (ℕ × ℕ × ℕ × ℕ)) :=
  tripleLoop P (fun le lm1 lm2 q out => some (out ++ [(q, le, lm1, lm2)])) []

/-- C50, the tables: for every list of paths, the tables built at load list the terms of the nested loops of `MACE` in the order of their
running number, and their length is the number of rows of `Phi1r`. -/
theorem C50_tables {K : Type} [Field K] (P : Params K) (h1 : P.phil.length ≤ P.phil1.length) (h2 : P.phil.length ≤ P.phil2.length) :
    ∃ L : List (ℕ × ℕ × ℕ × ℕ), cpuTerms P = some L ∧ L.map (fun t => t.1) = List.range L.length ∧
      Kokkos.phi1Tables P.phil.length P.phil1 P.phil2
        = some (L.map (fun t => t.2.2.1), L.map (fun t => t.2.2.2), L.map (fun t => t.2.1)) ∧
      ∃ n, Kokkos.phi1Counts P.phil P.phil1 P.phil2 = some (n, L.length) := by
  let R : ℕ × List (ℕ × ℕ × ℕ × ℕ) → List ℕ × List ℕ × List ℕ → Prop := fun q t =>
    q.1 = q.2.length ∧ q.2.map (fun t => t.1) = List.range q.2.length ∧
      t = (q.2.map (fun t => t.2.2.1), q.2.map (fun t => t.2.2.2), q.2.map (fun t => t.2.1))
  have step : ∀ le l1 l2 : ℕ, ∀ q t, R q t → ∃ q' t',
      loop (2 * l1 + 1) (fun m1 => cnt (2 * l2 + 1) (fun m2 c (s : List (ℕ × ℕ × ℕ × ℕ)) => some (s ++ [(c, le, l1 * l1 + m1, l2 * l2 + m2)]))) q = some q' ∧
      loop (l1 * (l1 + 2) + 1 - l1 * l1) (fun i => loop (l2 * (l2 + 2) + 1 - l2 * l2) (fun j (t : List ℕ × List ℕ × List ℕ) =>
        some (t.1 ++ [l1 * l1 + i], t.2.1 ++ [l2 * l2 + j], t.2.2 ++ [le]))) t = some t' ∧
      R q' t' ∧ q'.1 = q.1 + (2 * l1 + 1) * (2 * l2 + 1) := by
    intro le l1 l2 q t hR
    have e : ∀ l : ℕ, l * (l + 2) + 1 - l * l = 2 * l + 1 := fun l => by
      rw [show l * (l + 2) + 1 = l * l + (2 * l + 1) by ring, Nat.add_sub_cancel_left]
    rw [e, e]
    obtain ⟨q', t', k1, k2, k3⟩ := loop_rel (n := 2 * l1 + 1)
      (F := fun m1 => cnt (2 * l2 + 1) (fun m2 c (s : List (ℕ × ℕ × ℕ × ℕ)) => some (s ++ [(c, le, l1 * l1 + m1, l2 * l2 + m2)])))
      (G := fun i => loop (2 * l2 + 1) (fun j (t : List ℕ × List ℕ × List ℕ) => some (t.1 ++ [l1 * l1 + i], t.2.1 ++ [l2 * l2 + j], t.2.2 ++ [le])))
      R (fun i _ q t hR => loop_rel R (fun j _ q t hR => ⟨_, _, rfl, rfl, by
        obtain ⟨r1, r2, rfl⟩ := hR
        refine ⟨by simp [r1], ?_, by simp⟩
        simp only [List.map_append, List.map_cons, List.map_nil, r2, List.length_append, List.length_cons, List.length_nil, zero_add,
          List.range_succ, r1]⟩) hR) hR
    refine ⟨q', t', k1, k2, k3, ?_⟩
    have h0 : ∀ m, ∀ q', loop m (fun m1 => cnt (2 * l2 + 1) (fun m2 c (s : List (ℕ × ℕ × ℕ × ℕ)) => some (s ++ [(c, le, l1 * l1 + m1, l2 * l2 + m2)]))) q
        = some q' → q'.1 = q.1 + m * (2 * l2 + 1) := by
      intro m
      induction m with
      | zero => intro q' h; cases h; simp
      | succ m ih =>
        intro q' h
        obtain ⟨q1, h1, h2⟩ := Option.bind_eq_some_iff.mp h
        replace h2 := h2
        dsimp only at h2
        rw [show q1 = (q1.1, q1.2) from rfl, cnt_eq] at h2
        obtain ⟨s, -, rfl⟩ := Option.map_eq_some_iff.mp h2
        have := ih q1 h1
        dsimp only
        rw [this]; ring
    exact h0 _ q' k1
  have key : ∀ m ≤ P.phil.length, ∃ q t, loop m (fun le (q : ℕ × List (ℕ × ℕ × ℕ × ℕ)) => do
        let l1 ← P.phil1[le]?
        let l2 ← P.phil2[le]?
        loop (2 * l1 + 1) (fun m1 => cnt (2 * l2 + 1) (fun m2 c (s : List (ℕ × ℕ × ℕ × ℕ)) => some (s ++ [(c, le, l1 * l1 + m1, l2 * l2 + m2)]))) q) (0, [])
          = some q ∧
      Kokkos.phi1Tables m P.phil1 P.phil2 = some t ∧ R q t ∧
      loop m (fun le n => do
        let l1 ← P.phil1[le]?
        let l2 ← P.phil2[le]?
        pure (n + (2 * l1 + 1) * (2 * l2 + 1))) 0 = some q.2.length := by
    intro m hm
    induction m with
    | zero => exact ⟨(0, []), ([], [], []), rfl, rfl, ⟨rfl, rfl, rfl⟩, rfl⟩
    | succ m ih =>
      obtain ⟨q, t, k1, k2, k3, k4⟩ := ih (by omega)
      have e1 : P.phil1[m]? = some P.phil1[m] := List.getElem?_eq_getElem (by omega)
      have e2 : P.phil2[m]? = some P.phil2[m] := List.getElem?_eq_getElem (by omega)
      obtain ⟨q', t', j1, j2, j3, j4⟩ := step m P.phil1[m] P.phil2[m] q t k3
      refine ⟨q', t', (bind_of_some k1 _).trans ?_, (bind_of_some k2 _).trans ?_, j3, (bind_of_some k4 _).trans ?_⟩
      · exact (bind_of_some e1 _).trans ((bind_of_some e2 _).trans j1)
      · exact (bind_of_some e1 _).trans ((bind_of_some e2 _).trans j2)
      · refine (bind_of_some e1 _).trans ((bind_of_some e2 _).trans ?_)
        rw [← j3.1, j4, ← k3.1]; rfl
  obtain ⟨q, t, k1, k2, ⟨-, k3, rfl⟩, k4⟩ := key _ le_rfl
  refine ⟨q.2, (bind_of_some k1 _).trans rfl, k3, k2, ?_⟩
  have ⟨n, hn⟩ : ∃ n, loop P.phil.length (fun i n => (P.phil[i]?).map (fun l => n + (2 * l + 1))) 0 = some n := by
    have : ∀ m ≤ P.phil.length, ∃ n, loop m (fun i n => (P.phil[i]?).map (fun l => n + (2 * l + 1))) 0 = some n := by
      intro m hm
      induction m with
      | zero => exact ⟨0, rfl⟩
      | succ m ih =>
        obtain ⟨n, hn⟩ := ih (by omega)
        have e1 : P.phil[m]? = some P.phil[m] := List.getElem?_eq_getElem (by omega)
        exact ⟨n + (2 * P.phil[m] + 1), (bind_of_some hn _).trans (by dsimp only; rw [e1]; rfl)⟩
    exact this _ le_rfl
  exact ⟨n, (bind_of_some hn _).trans ((bind_of_some k4 _).trans rfl)⟩

/-- The inputs of `compute_Phi1` and the function itself in `MACE`, mace.cpp:38, 44-45. -/
noncomputable def cpuPhi1 (P : Params ℝ) (g : Graph ℝ) (s : State ℝ) : Option (State ℝ) := do
  let s ← computeY P g s
  let s ← computeR1 P g s
  computePhi1 P g s

/-- The same in `MACEKokkos`, mace_kokkos.cpp:72-73, 80: `Phi1r` and `Phi1` for the features `H1`. -/
noncomputable def kokkosPhi1 (V : Kokkos.Env ℝ) (Q : Kokkos.Params ℝ) (g : Graph ℝ) (t : Kokkos.State ℝ) (H1 : View ℝ) :
    Option (View ℝ × View ℝ) := do
  let r1 ← Kokkos.computeRadial V (Q.phil.length * Q.C) Q.radial1 g t.R1 t.R1d
  let y ← Kokkos.computeY V Q.M Q.sph Q.dsph Q.nrm g.xyz t.Y t.Yg t.xs t.Ygs
  Kokkos.computePhi1 V Q.C Q.M Q.numLelm Q.numLme Q.cg Q.tables g r1.1 y.1 H1 t.Phi1r t.Phi1

theorem SameRows.exists {v : View ℝ} {x : List ℝ} {N n m : ℕ} (h : SameRows v x N n m) : ∃ H : ℕ → ℕ → ℕ → ℝ,
    x = T3 N n m H ∧ Kokkos.G3 v N n m H := by
  obtain ⟨h1, h2⟩ := h
  have e : ∀ i < N, ∀ a < n, ∀ k < m, x[(i * n + a) * m + k]? = some (nth x ((i * n + a) * m + k)) := fun i hi a ha k hk =>
    some_nth (by rw [h1]; exact flat3_lt hi ha hk)
  refine ⟨fun i a k => nth x ((i * n + a) * m + k), ?_, fun i hi a ha k hk => (h2 i hi a ha k hk).trans (e i hi a ha k hk)⟩
  have : x = tab (N * n * m) (nth x) := by
    refine List.ext_getElem? (fun p => ?_)
    by_cases hp : p < N * n * m
    · rw [some_nth (by rw [h1]; exact hp)]
      simp [tab, hp]
    · rw [List.getElem?_eq_none (by omega), List.getElem?_eq_none (by simp [tab]; omega)]
  exact this.trans (tab_eq_T3 (fun i hi a ha k hk => rfl))

/-- C50, `Phi1`: for the same features `H1` of the nodes, whatever they are, `MACEKokkos` and `MACE` compute the same `Phi1r` and `Phi1`. -/
theorem C50_second_layer (hf : FileOk f) (hk : FileOkK f ne) (hs : Poly.SortFn srt) :
    ∃ P s0 Q, MACE.load srt sph dsph f = some (P, s0) ∧ Kokkos.load srt sph dsph junk ne f = some (Q, Kokkos.State.init ℝ) ∧
      ∀ T X, SysOk f T → Inside f T X → ∀ s t H1, HistK f Q t → SameRows H1 s.H1 T.N ((f.Lmax + 1) * (f.Lmax + 1)) f.numChannels →
        ∀ V : Kokkos.Env ℝ, ∃ s' Phi1r Phi1, cpuPhi1 P (T.graph X) s = some s' ∧ kokkosPhi1 V Q (T.graph X) t H1 = some (Phi1r, Phi1) ∧
          SameRows Phi1r s'.Phi1r T.N P.numLelm f.numChannels ∧ SameRows Phi1 s'.Phi1 T.N P.numLme f.numChannels := by
  obtain ⟨P, s0, h1, h2, h3⟩ := MACE.load_spec hf hs sph dsph
  obtain ⟨Q, k1, k2⟩ := Kokkos.load_spec hf hk hs sph dsph junk
  refine ⟨P, s0, Q, h1, k1, fun T X hT hX s t H1 ht hH V => ?_⟩
  obtain ⟨hs1, -, -⟩ := ht.ok hf k2
  obtain ⟨H, hH1, hH2⟩ := hH.exists
  rw [graph_gx]
  have hg : GOk (gx T T.E X) f.nT (gx T T.E X).N (confOf f sph T X) (nthN T.nn) (dconfOf f dsph T X).X (dconfOf f dsph T X).R :=
    graph_ok hT le_rfl
  have hE : (gx T T.E X).Ex = (gx T T.E X).E := gx_Ex
  have hF := Kokkos.kfeat hf hT k2 hX
  have hC := feat_ok (Ex := T.E) hf hT h2 hX
  have hw := k2.wok
  obtain ⟨R1, R1d, b1, b2, b3, b4⟩ := Kokkos.computeRadial_spec V hF.n1 hg (Kokkos.RadX.none hE) hs1.R1 hF.r1
  replace b3 := Kokkos.gl_of b3
  obtain ⟨Y, Yg, xs, Ygs, c1, c2, c3, c4, c5⟩ := Kokkos.computeY_spec V (M := (netOf f).M) (num := (gx T T.E X).E) (sph := Q.sph) (dsph := Q.dsph)
    (nrm := Q.nrm) (hg.xyz_len.trans (by rw [hE])) (fun e he a ha => hg.xyz_get' he ha) hs1.Y hs1.xs
  replace c4 : Kokkos.GF Y (gx T T.E X).E (netOf f).M (confOf f sph T X).Y := fun e he lm hlm => by rw [c4 e he lm hlm, hF.y e he lm hlm]
  obtain ⟨Pr, Ph, i1, i2, i3, i4, i5⟩ := Kokkos.computePhi1_spec V hw.tabs hg b3 c4 (NH := (gx T T.E X).N) (H := H) hH2 hs1.Phi1r hs1.Phi1
  obtain ⟨Y', Yg', xs', e1, e2⟩ := MACE.computeY_spec h2.wok hg s
  obtain ⟨o1, o2, g1, g2, -⟩ := MACE.computeR1_spec h2.wok hg hC { s with Y := Y', Yg := Yg', xyzs := xs' }
  have g3 := MACE.computePhi1_spec (P := P) (s := { s with Y := Y', Yg := Yg', xyzs := xs', R1 := o1, R1d := o2 }) h2.wok hg (H := H)
    (fun h => by
      refine (e2 (by rw [hE]; exact h)).1.trans (tab2_congr (fun e he lm hlm => ?_))
      exact (hC.y e he lm hlm).symm) g2 hH1
  refine ⟨_, Pr, Ph, (bind_of_some e1 _).trans <| (bind_of_some g1 _).trans g3, ?_, ?_, ?_⟩
  · unfold kokkosPhi1
    rw [hw.C, hw.M, hw.len, hw.nQ, hw.nOut]
    exact (bind_of_some b1 _).trans <| (bind_of_some c1 _).trans i1
  · rw [h2.wok.nQ]; exact sameRows_of i3
  · rw [h2.wok.nOut]; exact sameRows_of i5

/-- The file of `MACEExample.lean` meets the further conditions. -/
theorem exFile_okK : FileOkK exFile 2 where
  elements := by decide
  mono0 := by
    intro LM _ m hm
    simp only [exFile, List.mem_cons, List.not_mem_nil, or_false] at hm
    rcases hm with rfl | rfl <;> simp
  mono1 := by decide
  A0s := by
    intro _ w hw
    simp only [exFile, List.mem_replicate] at hw
    rw [hw.2]; rfl
  A1s := by intro h; cases h

example : FileOk exFile ∧ FileOkK exFile 2 ∧ SysOk exFile exSys ∧ Inside exFile exSys exX := ⟨exFile_ok, exFile_okK, exSys_ok, exInside⟩

/-- A shape of table the theorem is about: two paths, twelve terms. -/
example : Kokkos.phi1Tables 2 [1, 0] [1, 1]
    = some ([1, 1, 1, 2, 2, 2, 3, 3, 3, 0, 0, 0], [1, 2, 3, 1, 2, 3, 1, 2, 3, 1, 2, 3], [0, 0, 0, 0, 0, 0, 0, 0, 0, 1, 1, 1]) := by decide

/-- A loop that ends has executed its body for every index. -/
theorem loop_visits {σ : Type} {n : ℕ} {F : ℕ → σ → Option σ} (I : σ → Prop) (h : ∀ i s s', I s → F i s = some s' → I s') {s t : σ}
    (hs : I s) (e : loop n F s = some t) : I t ∧ ∀ i < n, ∃ u u', I u ∧ F i u = some u' := by
  induction n generalizing t with
  | zero => cases e; exact ⟨hs, fun i hi => absurd hi (by omega)⟩
  | succ n ih =>
    obtain ⟨u, h1, h2⟩ := Option.bind_eq_some_iff.mp e
    obtain ⟨k1, k2⟩ := ih h1
    refine ⟨h n u t k1 h2, fun i hi => ?_⟩
    rcases Nat.lt_succ_iff_lt_or_eq.mp hi with hi | rfl
    · exact k2 i hi
    · exact ⟨u, t, k1, h2⟩

theorem monomialsView_short {mo : List (List ℕ)} {w : View ℤ} (h : Kokkos.monomialsView mo.length mo = some w) : ∀ m ∈ mo, m.length ≤ 3 := by
  have set_ext : ∀ (v v' : View ℤ) is x, v.set is x = some v' → v'.ext = v.ext := by
    intro v v' is x h
    obtain ⟨p, -, h2⟩ := Option.bind_eq_some_iff.mp h
    obtain ⟨d, -, rfl⟩ := Option.map_eq_some_iff.mp h2
    rfl
  have inner : ∀ (i : ℕ) (m : List ℕ) (j : ℕ) (v v' : View ℤ), v.ext = [mo.length, 3] → (do
      let x ← m[j]?
      v.set [i, j] (x : ℤ)) = some v' → v'.ext = [mo.length, 3] := by
    intro i m j v v' hv h
    obtain ⟨x, -, h2⟩ := Option.bind_eq_some_iff.mp h
    exact (set_ext _ _ _ _ h2).trans hv
  intro m hm
  obtain ⟨i, hi, rfl⟩ := List.mem_iff_getElem.mp hm
  obtain ⟨-, H⟩ := loop_visits (fun v : View ℤ => v.ext = [mo.length, 3]) (fun i s s' hs e => by
    obtain ⟨m, -, h2⟩ := Option.bind_eq_some_iff.mp e
    exact (loop_visits (fun v : View ℤ => v.ext = [mo.length, 3]) (inner i m) hs h2).1) rfl h
  obtain ⟨u, u', hu, e⟩ := H i hi
  obtain ⟨m, e1, e2⟩ := Option.bind_eq_some_iff.mp e
  rw [List.getElem?_eq_getElem hi] at e1
  cases e1
  by_contra hlt
  obtain ⟨v, v', hv, e3⟩ := (loop_visits (fun v : View ℤ => v.ext = [mo.length, 3]) (inner i mo[i]) hu e2).2 3 (by omega)
  obtain ⟨x, -, e4⟩ := Option.bind_eq_some_iff.mp e3
  unfold View.set at e4
  rw [hv] at e4
  simp [flat] at e4

/-- A monomial with four or more factors is written beyond its row of a view with three columns at load (mace_kokkos.cpp:1673-1684):
undefined behaviour, for every file containing one.  `MACE` has no such restriction, so the condition in `FileOkK` is needed. -/
theorem long_monomial_load (f : File) (LM : ℕ) (hLM : LM < (f.Lmax + 1) * (f.Lmax + 1)) {m : List ℕ} (hi : m ∈ f.M0mon LM)
    (hm : 3 < m.length) : Kokkos.load srt sph dsph junk ne f = none := by
  by_contra hne
  obtain ⟨w, hw⟩ := Option.ne_none_iff_exists'.mp hne
  unfold Kokkos.load at hw
  dsimp only at hw
  obtain ⟨_, -, hw⟩ := Option.bind_eq_some_iff.mp hw
  obtain ⟨_, -, hw⟩ := Option.bind_eq_some_iff.mp hw
  obtain ⟨_, -, hw⟩ := Option.bind_eq_some_iff.mp hw
  obtain ⟨_, -, hw⟩ := Option.bind_eq_some_iff.mp hw
  obtain ⟨o, h, -⟩ := Option.bind_eq_some_iff.mp hw
  obtain ⟨u, u', -, e⟩ := (loop_visits (fun _ => True) (fun _ _ _ _ _ => trivial) trivial h).2 LM hLM
  obtain ⟨v, e1, -⟩ := Option.bind_eq_some_iff.mp e
  exact absurd (monomialsView_short e1 m hi) (by omega)

/-- `exFile` with one monomial of four factors. -/
noncomputable def exLong : File := { exFile with M0mon := fun LM => [[LM], [0, 0, 0, LM]] }

theorem exLong_ok : FileOk exLong :=
  { exFile_ok with
    M0w := by intros; rfl
    M0mon := by
      intro LM hLM
      have : LM < 4 := hLM
      have e : exLong.M0mon LM = [[LM], [0, 0, 0, LM]] := rfl
      have h4 : (exLong.lmax + 1) * (exLong.lmax + 1) = 4 := rfl
      rw [e, h4]
      interval_cases LM <;> decide }

/-- `MACE` loads it, `MACEKokkos` does not. -/
example (hs : Poly.SortFn srt) : (∃ P s, MACE.load srt sph dsph exLong = some (P, s)) ∧ Kokkos.load srt sph dsph junk ne exLong = none := by
  obtain ⟨P, s, h, -⟩ := MACE.load_spec exLong_ok hs sph dsph
  exact ⟨⟨P, s, h⟩, long_monomial_load exLong 0 (by decide) (m := [0, 0, 0, 0]) (by simp [exLong]) (by decide)⟩

end Verif.Props
