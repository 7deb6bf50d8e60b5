import Verif.Lemmas.MACE.EvalGrad
import Mathlib.Algebra.BigOperators.Group.Finset.Basic

/-! # The energy of a node depends on its two-hop environment only -/

namespace Verif.Spec
open Verif.MACE

/-- Nodes `i` of `T` and `i'` of `T'` have the same type, and `σ` matches their edges with the same bond vectors and
neighbour types. -/
structure SameEnv (T : Sys) (X : ℕ → ℕ → ℝ) (T' : Sys) (X' : ℕ → ℕ → ℝ) (i i' : ℕ) (σ : ℕ → ℕ) : Prop where
  typ : nthN T'.types i' = nthN T.types i
  bij : Set.BijOn σ (T.edg i) (T'.edg i')
  vec : ∀ e ∈ T.edg i, ∀ a < 3, X' (σ e) a = X e a
  nty : ∀ e ∈ T.edg i, nthN T'.ntypes (σ e) = nthN T.ntypes e

end Verif.Spec

namespace Verif.MACE
open Verif.Spec

variable {f : File} {sph : ℝ → ℝ → ℝ → ℕ → ℝ} {T T' : Sys} {X X' : ℕ → ℕ → ℝ} {i i' : ℕ} {σ : ℕ → ℕ}

theorem len_congr {x y : ℕ → ℝ} (h : ∀ a < 3, x a = y a) : len x = len y := by
  unfold len
  rw [Finset.sum_congr rfl (fun a ha => by rw [h a (Finset.mem_range.mp ha)])]

theorem _root_.Verif.Spec.SameEnv.sum (h : SameEnv T X T' X' i i' σ) {g g' : ℕ → ℝ} (hg : ∀ e ∈ T.edg i, g' (σ e) = g e) :
    ∑ e ∈ T'.edg i', g' e = ∑ e ∈ T.edg i, g e := by
  symm
  refine Finset.sum_bij (fun e _ => σ e) (fun e he => h.bij.1 he) (fun e he e' he' heq => h.bij.2.1 he he' heq)
    (fun e he => ?_) (fun e he => (hg e he).symm)
  obtain ⟨e', h1, h2⟩ := h.bij.2.2 he
  exact ⟨e', h1, h2⟩

section env
variable (h : SameEnv T X T' X' i i' σ) (hi : i < T.N) (hi' : i' < T'.N)
include h hi hi'

theorem _root_.Verif.Spec.SameEnv.pair {e : ℕ} (he : e ∈ T.edg i) : edgePair f T' (σ e) = edgePair f T e ∧ len (X' (σ e)) = len (X e) := by
  unfold edgePair
  rw [owner_eq hi he, owner_eq hi' (h.bij.1 he), h.typ, h.nty e he]
  exact ⟨rfl, len_congr (h.vec e he)⟩

theorem _root_.Verif.Spec.SameEnv.s0 : (confOf f sph T' X').s0 i' = (confOf f sph T X).s0 i := by
  simp only [confOf]
  split
  · congr 1
    exact h.sum (fun e he => by rw [(h.pair (f := f) hi hi' he).1, (h.pair (f := f) hi hi' he).2])
  · rfl

theorem _root_.Verif.Spec.SameEnv.s1 : (confOf f sph T' X').s1 i' = (confOf f sph T X).s1 i := by
  simp only [confOf]
  split
  · congr 1
    exact h.sum (fun e he => by rw [(h.pair (f := f) hi hi' he).1, (h.pair (f := f) hi hi' he).2])
  · rfl

theorem _root_.Verif.Spec.SameEnv.h1 (k LM : ℕ) :
    Spec.h1 (netOf f) (confOf f sph T' X') i' LM k = Spec.h1 (netOf f) (confOf f sph T X) i LM k := by
  have hs0 := h.s0 (f := f) (sph := sph) hi hi'
  have hphi : ∀ lm k, phi0 (netOf f) (confOf f sph T' X') i' lm k = phi0 (netOf f) (confOf f sph T X) i lm k := by
    intro lm k
    refine h.sum (fun e he => ?_)
    simp only [confOf]
    rw [(h.pair (f := f) hi hi' he).1, (h.pair (f := f) hi hi' he).2, h.nty e he, h.vec e he 0 (by norm_num), h.vec e he 1 (by norm_num),
      h.vec e he 2 (by norm_num)]
  have ht : (confOf f sph T' X').typ i' = (confOf f sph T X).typ i := h.typ
  unfold Spec.h1 m0 a0s a0
  simp only [hphi, hs0, ht]

/-- For any first-layer features `H`, `H'` which agree on the node and its neighbours. -/
theorem _root_.Verif.Spec.SameEnv.nodeE {H H' : ℕ → ℕ → ℕ → ℝ} (hn : ∀ e ∈ T.edg i, ∀ LM k, H' (nthN T'.idx (σ e)) LM k = H (nthN T.idx e) LM k)
    (hh : ∀ LM k, H' i' LM k = H i LM k) :
    Spec.nodeE (netOf f) (confOf f sph T' X') H' i' = Spec.nodeE (netOf f) (confOf f sph T X) H i := by
  have hs1 := h.s1 (f := f) (sph := sph) hi hi'
  have hphi : ∀ q k, phi1r (netOf f) (confOf f sph T' X') H' i' q k = phi1r (netOf f) (confOf f sph T X) H i q k := by
    intro q k
    refine h.sum (fun e he => ?_)
    have hn' := hn e he ((netOf f).q2 q) k
    have e1 : (confOf f sph T' X').nbr (σ e) = nthN T'.idx (σ e) := rfl
    have e2 : (confOf f sph T X).nbr e = nthN T.idx e := rfl
    rw [e1, e2, hn']
    congr 1
    simp only [confOf]
    rw [(h.pair (f := f) hi hi' he).1, (h.pair (f := f) hi hi' he).2, h.vec e he 0 (by norm_num), h.vec e he 1 (by norm_num),
      h.vec e he 2 (by norm_num)]
  have hz : (confOf f sph T' X').pairE i' = (confOf f sph T X).pairE i := by
    simp only [confOf]
    split
    · refine h.sum (fun e he => ?_)
      unfold zblEdge
      rw [owner_eq hi he, owner_eq hi' (h.bij.1 he), h.typ, h.nty e he, len_congr (h.vec e he)]
    · rfl
  have ht : (confOf f sph T' X').typ i' = (confOf f sph T X).typ i := h.typ
  unfold Spec.nodeE h2 m1 a1s a1 phi1
  simp only [hphi, hs1, ht, hz, hh]

theorem _root_.Verif.Spec.SameEnv.energy (hn : ∀ e ∈ T.edg i, ∀ LM k, Spec.h1 (netOf f) (confOf f sph T' X') (nthN T'.idx (σ e)) LM k
      = Spec.h1 (netOf f) (confOf f sph T X) (nthN T.idx e) LM k) :
    energy (netOf f) (confOf f sph T' X') i' = energy (netOf f) (confOf f sph T X) i :=
  h.nodeE hi hi' hn (fun LM k => h.h1 (f := f) (sph := sph) hi hi' k LM)

end env

end Verif.MACE
