import Verif.Lemmas.MACE.Local
import Verif.Lemmas.MACE.EvalGrad

/-! # Two graphs that look the same from every node

`T'` covers `T`: every node of `T'` has the edges of its image, outgoing and incoming. Then energies and forces are those of the
images. -/

namespace Verif.Spec
open Verif.MACE

/-- Node `i'` of `T'` has the image `φ i'`, edge `e'` the image `ψ e'`; at each node of `T'` the outgoing edges are those of the image, and
so are the incoming ones. -/
structure Covers (T' : Sys) (X' : ℕ → ℕ → ℝ) (T : Sys) (X : ℕ → ℕ → ℝ) (φ ψ : ℕ → ℕ) : Prop where
  node : ∀ i < T'.N, φ i < T.N
  env : ∀ i < T'.N, SameEnv T' X' T X i (φ i) ψ
  nbr : ∀ e < T'.E, nthN T.idx (ψ e) = φ (nthN T'.idx e)
  into : ∀ v < T'.N, Set.BijOn ψ {e | e < T'.E ∧ nthN T'.idx e = v} {e | e < T.E ∧ nthN T.idx e = φ v}

end Verif.Spec

namespace Verif.MACE
open Verif.Spec

variable {f : File} {sph : ℝ → ℝ → ℝ → ℕ → ℝ} {dsph : ℝ → ℝ → ℝ → ℕ → ℕ → ℝ} {T T' : Sys} {X X' : ℕ → ℕ → ℝ} {φ ψ : ℕ → ℕ}

section cov
variable (h : Covers T' X' T X φ ψ) (hn : ∀ e < T'.E, nthN T'.idx e < T'.N)
include h

theorem _root_.Verif.Spec.Covers.lt {e : ℕ} (he : e < T'.E) : ψ e < T.E := by
  obtain ⟨h1, h2⟩ := owner_spec he
  exact edg_lt (h.node _ h1) ((h.env _ h1).bij.1 h2)

theorem _root_.Verif.Spec.Covers.owner {e : ℕ} (he : e < T'.E) : T.owner (ψ e) = φ (T'.owner e) := by
  obtain ⟨h1, h2⟩ := owner_spec he
  exact owner_eq (h.node _ h1) ((h.env _ h1).bij.1 h2)

theorem _root_.Verif.Spec.Covers.feat {e : ℕ} (he : e < T'.E) :
    edgePair f T (ψ e) = edgePair f T' e ∧ len (X (ψ e)) = len (X' e) ∧ (∀ a < 3, X (ψ e) a = X' e a) ∧
      nthN T.ntypes (ψ e) = nthN T'.ntypes e ∧ nthN T.types (T.owner (ψ e)) = nthN T'.types (T'.owner e) := by
  obtain ⟨h1, h2⟩ := owner_spec he
  have := (h.env _ h1).pair (f := f) h1 (h.node _ h1) h2
  exact ⟨this.1, this.2, (h.env _ h1).vec e h2, (h.env _ h1).nty e h2, by rw [h.owner he]; exact (h.env _ h1).typ⟩

theorem _root_.Verif.Spec.Covers.edge {e : ℕ} (he : e < T'.E) :
    (∀ l k, (confOf f sph T X).R0 (ψ e) l k = (confOf f sph T' X').R0 e l k) ∧
    (∀ p k, (confOf f sph T X).R1 (ψ e) p k = (confOf f sph T' X').R1 e p k) ∧
    (∀ lm, (confOf f sph T X).Y (ψ e) lm = (confOf f sph T' X').Y e lm) ∧
    (confOf f sph T X).nty (ψ e) = (confOf f sph T' X').nty e := by
  obtain ⟨h1, h2, h3, h4, -⟩ := h.feat (f := f) he
  simp only [confOf]
  rw [h1, h2, h4, h3 0 (by norm_num), h3 1 (by norm_num), h3 2 (by norm_num)]
  exact ⟨fun _ _ => rfl, fun _ _ => rfl, fun _ => rfl, rfl⟩

theorem _root_.Verif.Spec.Covers.dedge {e : ℕ} (he : e < T'.E) :
    (∀ l k, (dconfOf f dsph T X).dR0 (ψ e) l k = (dconfOf f dsph T' X').dR0 e l k) ∧
    (∀ p k, (dconfOf f dsph T X).dR1 (ψ e) p k = (dconfOf f dsph T' X').dR1 e p k) ∧
    (∀ a lm, (dconfOf f dsph T X).dY (ψ e) a lm = (dconfOf f dsph T' X').dY e a lm) ∧
    (dconfOf f dsph T X).R (ψ e) = (dconfOf f dsph T' X').R e ∧ (∀ a < 3, (dconfOf f dsph T X).X (ψ e) a = (dconfOf f dsph T' X').X e a) ∧
    (dconfOf f dsph T X).ds0 (ψ e) = (dconfOf f dsph T' X').ds0 e ∧ (dconfOf f dsph T X).ds1 (ψ e) = (dconfOf f dsph T' X').ds1 e := by
  obtain ⟨h1, h2, h3, h4, -⟩ := h.feat (f := f) he
  simp only [dconfOf]
  rw [h1, h2, h3 0 (by norm_num), h3 1 (by norm_num), h3 2 (by norm_num)]
  exact ⟨fun _ _ => rfl, fun _ _ => rfl, fun _ _ => rfl, rfl, h3, rfl, rfl⟩

theorem _root_.Verif.Spec.Covers.zbl {e : ℕ} (he : e < T'.E) {a : ℕ} (ha : a < 3) : zblForce f T X (ψ e) a = zblForce f T' X' e a := by
  obtain ⟨h1, h2, h3, h4, h5⟩ := h.feat (f := f) he
  unfold zblForce zblEdgeD
  rw [h2, h3 a ha, h4, h5]

theorem _root_.Verif.Spec.Covers.a0s {i : ℕ} (hi : i < T'.N) :
    Spec.a0s (netOf f) (confOf f sph T X) (φ i) = Spec.a0s (netOf f) (confOf f sph T' X') i := by
  funext lm k
  have hs0 := (h.env i hi).s0 (f := f) (sph := sph) hi (h.node i hi)
  have hphi : ∀ lm k, phi0 (netOf f) (confOf f sph T X) (φ i) lm k = phi0 (netOf f) (confOf f sph T' X') i lm k := by
    intro lm k
    refine (h.env i hi).sum (fun e he => ?_)
    obtain ⟨e1, e2, e3, e4⟩ := h.edge (f := f) (sph := sph) (edg_lt hi he)
    rw [e1, e3, e4]
  have ht : (confOf f sph T X).typ (φ i) = (confOf f sph T' X').typ i := (h.env i hi).typ
  unfold Spec.a0s a0
  simp only [hphi, hs0, ht]

include hn in
theorem _root_.Verif.Spec.Covers.a1s {i : ℕ} (hi : i < T'.N) :
    Spec.a1s (netOf f) (confOf f sph T X) (Spec.h1 (netOf f) (confOf f sph T X)) (φ i)
      = Spec.a1s (netOf f) (confOf f sph T' X') (Spec.h1 (netOf f) (confOf f sph T' X')) i := by
  funext lm k
  have hs1 := (h.env i hi).s1 (f := f) (sph := sph) hi (h.node i hi)
  have hphi : ∀ q k, phi1r (netOf f) (confOf f sph T X) (Spec.h1 (netOf f) (confOf f sph T X)) (φ i) q k
      = phi1r (netOf f) (confOf f sph T' X') (Spec.h1 (netOf f) (confOf f sph T' X')) i q k := by
    intro q k
    refine (h.env i hi).sum (fun e he => ?_)
    obtain ⟨e1, e2, e3, e4⟩ := h.edge (f := f) (sph := sph) (edg_lt hi he)
    have hv := hn e (edg_lt hi he)
    have e5 : (confOf f sph T X).nbr (ψ e) = φ ((confOf f sph T' X').nbr e) := h.nbr e (edg_lt hi he)
    have e6 : ∀ LM k, Spec.h1 (netOf f) (confOf f sph T X) (φ ((confOf f sph T' X').nbr e)) LM k
        = Spec.h1 (netOf f) (confOf f sph T' X') ((confOf f sph T' X').nbr e) LM k := fun LM k =>
      (h.env _ hv).h1 (f := f) (sph := sph) hv (h.node _ hv) k LM
    rw [e2, e3, e5, e6]
  unfold Spec.a1s a1 phi1
  simp only [hphi, hs1]

include hn in
theorem _root_.Verif.Spec.Covers.h2 {i : ℕ} (hi : i < T'.N) :
    Spec.h2 (netOf f) (confOf f sph T X) (Spec.h1 (netOf f) (confOf f sph T X)) (φ i)
      = Spec.h2 (netOf f) (confOf f sph T' X') (Spec.h1 (netOf f) (confOf f sph T' X')) i := by
  funext k
  have ht : (confOf f sph T X).typ (φ i) = (confOf f sph T' X').typ i := (h.env i hi).typ
  have h1 := (h.env i hi).h1 (f := f) (sph := sph) hi (h.node i hi)
  unfold Spec.h2 m1
  simp only [h.a1s hn hi, h1, ht]

include hn in
theorem _root_.Verif.Spec.Covers.energy {i : ℕ} (hi : i < T'.N) :
    Spec.energy (netOf f) (confOf f sph T X) (φ i) = Spec.energy (netOf f) (confOf f sph T' X') i := by
  refine (h.env i hi).energy hi (h.node i hi) (fun e he LM k => ?_)
  have hv := hn e (edg_lt hi he)
  rw [h.nbr e (edg_lt hi he)]
  exact (h.env _ hv).h1 hv (h.node _ hv) k LM

variable (G : (ℕ → ℝ) → ℕ → ℝ)

include hn in
theorem _root_.Verif.Spec.Covers.A1adj {i : ℕ} (hi : i < T'.N) (lm k : ℕ) :
    A1adj (netOf f) (confOf f sph T X) (Spec.h1 (netOf f) (confOf f sph T X)) G (φ i) lm k
      = A1adj (netOf f) (confOf f sph T' X') (Spec.h1 (netOf f) (confOf f sph T' X')) G i lm k := by
  have ht : (confOf f sph T X).typ (φ i) = (confOf f sph T' X').typ i := (h.env i hi).typ
  unfold MACE.A1adj M1adj H2adj g1
  rw [h.h2 hn hi, h.a1s hn hi, ht]

include hn in
theorem _root_.Verif.Spec.Covers.Dr1 {i : ℕ} (hi : i < T'.N) (q k : ℕ) :
    Dr1 (netOf f) (confOf f sph T X) (Spec.h1 (netOf f) (confOf f sph T X)) G (φ i) q k
      = Dr1 (netOf f) (confOf f sph T' X') (Spec.h1 (netOf f) (confOf f sph T' X')) G i q k := by
  have hs1 := (h.env i hi).s1 (f := f) (sph := sph) hi (h.node i hi)
  unfold MACE.Dr1 dphi1r phi1a
  simp only [h.A1adj hn G hi, hs1]

include hn in
theorem _root_.Verif.Spec.Covers.adj1 {v : ℕ} (hv : v < T'.N) (LM k : ℕ) :
    adj1 (netOf f) (confOf f sph T X) T.N (Dr1 (netOf f) (confOf f sph T X) (Spec.h1 (netOf f) (confOf f sph T X)) G) (φ v) LM k
      = adj1 (netOf f) (confOf f sph T' X') T'.N (Dr1 (netOf f) (confOf f sph T' X') (Spec.h1 (netOf f) (confOf f sph T' X')) G) v LM k := by
  have key : ∀ (T : Sys) (X : ℕ → ℕ → ℝ) (D : ℕ → ℕ → ℕ → ℝ) (v : ℕ), MACE.adj1 (netOf f) (confOf f sph T X) T.N D v LM k
      = ∑ e ∈ (Finset.range T.E).filter (fun e => nthN T.idx e = v), ∑ q ∈ Finset.range (netOf f).nQ,
        if LM = (netOf f).q2 q then (confOf f sph T X).R1 e ((netOf f).qp q) k * (confOf f sph T X).Y e ((netOf f).q1 q) * D (T.owner e) q k
          else 0 := by
    intro T X D v
    have e1 : ∀ g : ℕ → ℝ, ∑ e ∈ Finset.range T.E, g e = ∑ i ∈ Finset.range T.N, ∑ e ∈ T.edg i, g e :=
      fun g => sum_range_edges T.N T.nn g
    rw [Finset.sum_filter, e1]
    unfold MACE.adj1
    refine Finset.sum_congr rfl (fun i hi => Finset.sum_congr rfl (fun e he => ?_))
    rw [owner_eq (Finset.mem_range.mp hi) he]
    show ∑ q ∈ Finset.range (netOf f).nQ, (if v = nthN T.idx e ∧ LM = (netOf f).q2 q then _ else _) = _
    by_cases hv : nthN T.idx e = v
    · rw [if_pos hv]
      exact Finset.sum_congr rfl (fun q _ => by simp [hv])
    · rw [if_neg hv]
      exact Finset.sum_eq_zero (fun q _ => if_neg (fun h => hv h.1.symm))
  rw [key, key]
  symm
  obtain ⟨b1, b2, b3⟩ := h.into v hv
  refine Finset.sum_bij (fun e _ => ψ e) (fun e he => ?_) (fun e he e' he' heq => ?_) (fun e he => ?_) (fun e he => ?_)
  · have := b1 (show e < T'.E ∧ nthN T'.idx e = v by simpa using he)
    simpa using this
  · exact b2 (show e < T'.E ∧ nthN T'.idx e = v by simpa using he) (show e' < T'.E ∧ nthN T'.idx e' = v by simpa using he') heq
  · obtain ⟨e', h1, h2⟩ := b3 (show e < T.E ∧ nthN T.idx e = φ v by simpa using he)
    exact ⟨e', by simpa using (show e' < T'.E ∧ nthN T'.idx e' = v from h1), h2⟩
  · have he := (show e < T'.E ∧ nthN T'.idx e = v by simpa using he)
    obtain ⟨e1, e2, e3, e4⟩ := h.edge (f := f) (sph := sph) he.1
    refine Finset.sum_congr rfl (fun q _ => ?_)
    rw [e2, e3, h.owner he.1, h.Dr1 hn G (owner_spec he.1).1]

include hn in
theorem _root_.Verif.Spec.Covers.H1adj {v : ℕ} (hv : v < T'.N) (LM k : ℕ) :
    H1adj (netOf f) (confOf f sph T X) T.N (Spec.h1 (netOf f) (confOf f sph T X)) G (φ v) LM k
      = H1adj (netOf f) (confOf f sph T' X') T'.N (Spec.h1 (netOf f) (confOf f sph T' X')) G v LM k := by
  have ht : (confOf f sph T X).typ (φ v) = (confOf f sph T' X').typ v := (h.env v hv).typ
  unfold MACE.H1adj H1adj0 H2adj
  rw [h.adj1 hn G hv, h.h2 hn hv, ht]
  simp only [hv, h.node v hv]

include hn in
theorem _root_.Verif.Spec.Covers.A0adj {v : ℕ} (hv : v < T'.N) (lm k : ℕ) :
    A0adj (netOf f) (confOf f sph T X) (H1adj (netOf f) (confOf f sph T X) T.N (Spec.h1 (netOf f) (confOf f sph T X)) G) (φ v) lm k
      = A0adj (netOf f) (confOf f sph T' X')
        (H1adj (netOf f) (confOf f sph T' X') T'.N (Spec.h1 (netOf f) (confOf f sph T' X')) G) v lm k := by
  have ht : (confOf f sph T X).typ (φ v) = (confOf f sph T' X').typ v := (h.env _ hv).typ
  unfold MACE.A0adj g0
  simp only [h.H1adj hn G hv, h.a0s hv, ht]

include hn in
theorem _root_.Verif.Spec.Covers.forceL2 {e : ℕ} (he : e < T'.E) {a : ℕ} (ha : a < 3) :
    MACE.forceL2 (netOf f) (confOf f sph T X) (dconfOf f dsph T X) (Spec.h1 (netOf f) (confOf f sph T X)) (roGrad f) (T.owner (ψ e)) (ψ e) a
    = MACE.forceL2 (netOf f) (confOf f sph T' X') (dconfOf f dsph T' X') (Spec.h1 (netOf f) (confOf f sph T' X')) (roGrad f) (T'.owner e) e a := by
  obtain ⟨hi, hm⟩ := owner_spec he
  obtain ⟨e1, e2, e3, e4⟩ := h.edge (f := f) (sph := sph) he
  obtain ⟨d1, d2, d3, d4, d5, d6, d7⟩ := h.dedge (f := f) (dsph := dsph) he
  have hs1 := (h.env _ hi).s1 (f := f) (sph := sph) hi (h.node _ hi)
  have hv := hn e he
  have hnb : (confOf f sph T X).nbr (ψ e) = φ ((confOf f sph T' X').nbr e) := h.nbr e he
  have hH : ∀ LM k, Spec.h1 (netOf f) (confOf f sph T X) (φ ((confOf f sph T' X').nbr e)) LM k
      = Spec.h1 (netOf f) (confOf f sph T' X') ((confOf f sph T' X').nbr e) LM k := fun LM k =>
    (h.env _ hv).h1 (f := f) (sph := sph) hv (h.node _ hv) k LM
  rw [h.owner he]
  unfold MACE.forceL2 forceS force1
  rw [h.a1s hn hi]
  simp only [h.A1adj hn (roGrad f) hi, h.Dr1 hn (roGrad f) hi, hs1, d2, d3, d4, d7, d5 a ha, e2, e3, hnb, hH]

include hn in
theorem _root_.Verif.Spec.Covers.forceL1 {e : ℕ} (he : e < T'.E) {a : ℕ} (ha : a < 3) :
    MACE.forceL1 (netOf f) (confOf f sph T X) (dconfOf f dsph T X)
      (H1adj (netOf f) (confOf f sph T X) T.N (Spec.h1 (netOf f) (confOf f sph T X)) (roGrad f)) (T.owner (ψ e)) (ψ e) a
    = MACE.forceL1 (netOf f) (confOf f sph T' X') (dconfOf f dsph T' X')
      (H1adj (netOf f) (confOf f sph T' X') T'.N (Spec.h1 (netOf f) (confOf f sph T' X')) (roGrad f)) (T'.owner e) e a := by
  obtain ⟨hi, hm⟩ := owner_spec he
  obtain ⟨e1, e2, e3, e4⟩ := h.edge (f := f) (sph := sph) he
  obtain ⟨d1, d2, d3, d4, d5, d6, d7⟩ := h.dedge (f := f) (dsph := dsph) he
  have hs0 := (h.env _ hi).s0 (f := f) (sph := sph) hi (h.node _ hi)
  have ht : (confOf f sph T X).typ (φ (T'.owner e)) = (confOf f sph T' X').typ (T'.owner e) := (h.env _ hi).typ
  rw [h.owner he]
  unfold MACE.forceL1 forceS force0 phi0a
  rw [h.a0s hi]
  simp only [h.A0adj hn (roGrad f) hi, hs0, ht, d1, d3, d4, d6, d5 a ha, e1, e3, e4]

include hn in
/-- Forces of the covering graph are those of the images of the edges. -/
theorem _root_.Verif.Spec.Covers.force {e : ℕ} (he : e < T'.E) {a : ℕ} (ha : a < 3) :
    forceOf f sph dsph T X (ψ e) a = forceOf f sph dsph T' X' e a := by
  unfold forceOf
  rw [h.zbl he ha, h.forceL1 hn he ha, h.forceL2 hn he ha]

end cov

end Verif.MACE
