import Verif.Lemmas.Num.SameSecond

/-! # The whole evaluation with different old contents of the buffers -/

namespace Verif.Num
open Verif.MACE

variable {K : Type} [A : Arith K] {nT E : ℕ} {P : Params K} {g : Graph K} {D : Ref K} {s t : State K}

theorem pipeline_two (hF : Fits nT E P g) (hD : RefOk nT P D) (h : Same P g D [.E, .F] s t) :
    Two (Same P g D [.E, .F]) (pipeline P g s) (pipeline P g t) := by
  unfold pipeline
  refine Two.bind (computeY_two h) fun s t h => ?_
  refine Two.bind (computeR0_two hF h) fun s t h => ?_
  refine Two.bind (computeA0_two hF (by simp) (by simp) h) fun s t h => ?_
  refine Two.bind (computeA0Scaled_two (by simp) h) fun s t h => ?_
  refine Two.bind (computeM0_two hF hD (by simp) h) fun s t h => ?_
  refine Two.bind (computeH1_two (by simp) h) fun s t h => ?_
  refine Two.bind (computeR1_two hF h) fun s t h => ?_
  refine Two.bind (computePhi1_two hF (by simp) (by simp) (by simp) h) fun s t h => ?_
  refine Two.bind (computeA1_two hF (by simp) h) fun s t h => ?_
  refine Two.bind (computeA1Scaled_two (by simp) h) fun s t h => ?_
  refine Two.bind (computeM1_two hF hD (by simp) h) fun s t h => ?_
  refine Two.bind (computeH2_two (by simp) (by simp) h) fun s t h => ?_
  refine Two.bind (computeReadouts_two (by simp) (by simp) (by simp) h) fun s t h => ?_
  refine Two.bind (reverseH2_two (by simp) (by simp) (by simp) (by simp) h) fun s t h => ?_
  refine Two.bind (reverseM1_two (by simp) (by simp) (by simp) h) fun s t h => ?_
  refine Two.bind (reverseA1Scaled_two (by simp) (by simp) (by simp) h) fun s t h => ?_
  refine Two.bind (reverseA1_two hF (by simp) (by simp) h) fun s t h => ?_
  refine Two.bind (reversePhi1_two hF (by simp) (by simp) (by simp) (by simp) (by simp) (by simp) (by simp) (by simp) (by simp) h) fun s t h => ?_
  refine Two.bind (reverseH1_two (by simp) (by simp) h) fun s t h => ?_
  refine Two.bind (reverseM0_two (by simp) (by simp) (by simp) h) fun s t h => ?_
  refine Two.bind (reverseA0Scaled_two (by simp) (by simp) (by simp) h) fun s t h => ?_
  refine Two.mono (reverseA0_two hF (by simp) (by simp) (by simp) (by simp) (by simp) (by simp) h) fun s t h => ?_
  exact ⟨fun f hf => h.all f (by simp only [List.mem_cons, List.not_mem_nil, or_false] at hf; rcases hf with rfl | rfl <;> simp), h.lk, h.lk'⟩

/-- Evaluations of the same system by two objects with different history. -/
theorem compute_two (hF : Fits nT E P g) (hD : RefOk nT P D) (zbl : Option (ZBL K)) (hs : Lk P.C D s) (ht : Lk P.C D t) :
    Two (fun s t => s.nodeEnergies = t.nodeEnergies ∧ s.nodeForces = t.nodeForces ∧ Lk P.C D s ∧ Lk P.C D t) (compute zbl P g s) (compute zbl P g t) := by
  unfold compute
  have key : ∀ st : Bufs Bool K, Two (fun s t => s.nodeEnergies = t.nodeEnergies ∧ s.nodeForces = t.nodeForces ∧ Lk P.C D s ∧ Lk P.C D t)
      (pipeline P g { s with nodeEnergies := st false, nodeForces := st true }) (pipeline P g { t with nodeEnergies := st false, nodeForces := st true }) := by
    intro st
    refine Two.mono (pipeline_two hF hD ⟨fun f hf => ?_, ⟨hs.p0, hs.p1, hs.ro⟩, ⟨ht.p0, ht.p1, ht.ro⟩⟩) fun s t h =>
      ⟨h.eq .E (by simp), h.eq .F (by simp), h.lk, h.lk'⟩
    have e1 : st false = st false := rfl
    have e2 : st true = st true := rfl
    cases f <;> first | exact ⟨e1, trivial⟩ | exact ⟨e2, trivial⟩ | simp at hf
  cases zbl with
  | none =>
    have := key fun b => if b then List.replicate g.xyz.length 0 else List.replicate g.N 0
    dsimp only at this ⊢
    exact this
  | some z =>
    dsimp only
    refine Two.same fun st _ => ?_
    exact key st

end Verif.Num
