import Verif.Lemmas.Num.SameLoad
import Verif.Props.Num

/-! # Property theorems: results do not depend on the history, in any arithmetic (C103) -/

namespace Verif.Props
open Verif.MACE Verif.Num

variable {K : Type}

/-- C103: in any arithmetic the energies and forces of a call are the same numbers, whatever calls were made before and whatever
the buffers hold. -/
theorem C103_history [A : Arith K] (f : File) (hf : FileOk f) (srt : List (List (List ℕ)) → List (List (List ℕ))) (hsrt : Poly.SortFn srt)
    (φ : ℝ → K) (sph : K → K → K → ℕ → K) (dsph : K → K → K → ℕ → ℕ → K) (nrm : K) :
    ∃ P s0, Num.load srt φ sph dsph nrm f = some (P, s0) ∧ ∀ s t, NumHist f φ P s0 s → NumHist f φ P s0 t → ∀ T, SysOk f T →
      ∀ xyz r : List K, xyz.length = 3 * T.E → r.length = T.E → IndexIn A φ f r →
      ∃ s' t', compute (f.zbl.map (loadZbl φ)) P (graphOf T xyz r) s = some s' ∧
        compute (f.zbl.map (loadZbl φ)) P (graphOf T xyz r) t = some t' ∧
        s'.nodeEnergies = t'.nodeEnergies ∧ s'.nodeForces = t'.nodeForces := by
  obtain ⟨P, s0, h1, h2, P', h3, h4⟩ := load_true (φ := φ) (sph := sph) (dsph := dsph) (nrm := nrm) hf hsrt
  refine ⟨P, s0, h1, fun s t hs ht T hT xyz r hx hr hi => ?_⟩
  have hD := refOk_of h3 h4 h2
  have ok : ∀ s, NumHist f φ P s0 s → SizeOk f s ∧ Lk P.C (refOf φ f s0) s := by
    intro s hs
    induction hs with
    | init => exact ⟨h2, lk_of h1⟩
    | call _ hT hx hr hi e ih =>
      obtain ⟨s2, e1, -, -, e2⟩ := compute_true hf h3 h4 ih.1 hT hx hr hi
      rw [e] at e1
      cases e1
      have k := compute_two (fits_of hf h3 h4 hT hx hr) hD (f.zbl.map (loadZbl φ)) ih.2 ih.2 _ _ e e
      exact ⟨e2, k.2.2.1⟩
    | buffers _ e1 e2 e3 ih => exact ⟨ih.1.buffers e1 e2 e3, ⟨e1 ▸ ih.2.p0, e2 ▸ ih.2.p1, e3 ▸ ih.2.ro⟩⟩
  obtain ⟨s2, e1, -, -, -⟩ := compute_true hf h3 h4 (ok s hs).1 hT hx hr hi
  obtain ⟨t2, e2, -, -, -⟩ := compute_true hf h3 h4 (ok t ht).1 hT hx hr hi
  have k := compute_two (fits_of hf h3 h4 hT hx hr) hD (f.zbl.map (loadZbl φ)) (ok s hs).2 (ok t ht).2 _ _ e1 e2
  exact ⟨s2, t2, e1, e2, k.1, k.2.1⟩

/-- C103: a sequence of calls on one object gives, call by call, what a freshly loaded object gives. -/
theorem C103_calls [A : Arith K] (f : File) (hf : FileOk f) (srt : List (List (List ℕ)) → List (List (List ℕ))) (hsrt : Poly.SortFn srt)
    (φ : ℝ → K) (sph : K → K → K → ℕ → K) (dsph : K → K → K → ℕ → ℕ → K) (nrm : K) :
    ∃ P s0, Num.load srt φ sph dsph nrm f = some (P, s0) ∧ ∀ is : List (Sys × List K × List K),
      (∀ i ∈ is, SysOk f i.1 ∧ i.2.1.length = 3 * i.1.E ∧ i.2.2.length = i.1.E ∧ IndexIn A φ f i.2.2) →
      ∃ os, runAll (f.zbl.map (loadZbl φ)) P is s0 = some os ∧ os.length = is.length ∧
        ∀ (j : ℕ) (i : Sys × List K × List K), is[j]? = some i → ∃ s', compute (f.zbl.map (loadZbl φ)) P (graphOf i.1 i.2.1 i.2.2) s0 = some s' ∧
          os[j]? = some (s'.nodeEnergies, s'.nodeForces) := by
  obtain ⟨P, s0, h1, h2⟩ := C103_history f hf srt hsrt φ sph dsph nrm
  refine ⟨P, s0, h1, ?_⟩
  have key : ∀ (is : List (Sys × List K × List K)) s, NumHist f φ P s0 s →
      (∀ i ∈ is, SysOk f i.1 ∧ i.2.1.length = 3 * i.1.E ∧ i.2.2.length = i.1.E ∧ IndexIn A φ f i.2.2) →
      ∃ os, runAll (f.zbl.map (loadZbl φ)) P is s = some os ∧ os.length = is.length ∧
        ∀ (j : ℕ) (i : Sys × List K × List K), is[j]? = some i → ∃ s', compute (f.zbl.map (loadZbl φ)) P (graphOf i.1 i.2.1 i.2.2) s0 = some s' ∧
          os[j]? = some (s'.nodeEnergies, s'.nodeForces) := by
    intro is
    induction is with
    | nil => exact fun s _ _ => ⟨[], rfl, rfl, fun j i h => by simp at h⟩
    | cons i is ih =>
      intro s hs hi
      obtain ⟨a1, a2, a3, a4⟩ := hi i (by simp)
      obtain ⟨s', t', e1, e2, e3, e4⟩ := h2 s s0 hs .init i.1 a1 i.2.1 i.2.2 a2 a3 a4
      obtain ⟨os, b1, b2, b3⟩ := ih s' (.call hs a1 a2 a3 a4 e1) fun i h => hi i (by simp [h])
      refine ⟨(s'.nodeEnergies, s'.nodeForces) :: os, by simp [runAll, e1, b1], by simp [b2], fun j i' h => ?_⟩
      cases j with
      | zero =>
        simp only [List.getElem?_cons_zero, Option.some.injEq] at h
        subst h
        exact ⟨t', e2, by rw [List.getElem?_cons_zero, e3, e4]⟩
      | succ j =>
        rw [List.getElem?_cons_succ] at h
        obtain ⟨s2, c1, c2⟩ := b3 j i' h
        exact ⟨s2, c1, by rw [List.getElem?_cons_succ, c2]⟩
  exact fun is hi => key is s0 .init hi

/-- The theorem applies to a state all of whose force and adjoint buffers hold a value that is not a number, and to a call with such
a value among the bond vectors. -/
example (P : Params (Option ℤ)) (s0 : State (Option ℤ)) (n : ℕ) :
    NumHist (A := exArith) exFile exConv P s0 { s0 with nodeForces := List.replicate n none, A0a := List.replicate n none, H1a := [none, some 3] } :=
  NumHist.buffers (A := exArith) (s := s0) (NumHist.init (A := exArith)) rfl rfl rfl

end Verif.Props
