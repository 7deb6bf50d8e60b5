import Verif.Lemmas.Num.Safety
import Verif.Props.MACEExample

/-! # Property theorems: the evaluator in an arithmetic without laws (C101)

`Model/Num.lean` is the evaluator over any type of numbers with any operations (`Arith`): IEEE numbers with their infinities and
NaNs, with any rounding, are one instance.
-/

namespace Verif.Props
open Verif.MACE Verif.Num

variable {K : Type}

/-- States of the evaluator in an arithmetic, from the loaded object `s0`: after complete calls, and after arbitrary changes of
the plain buffers. -/
inductive NumHist [A : Arith K] (f : File) (φ : ℝ → K) (P : Params K) (s0 : State K) : State K → Prop
  | init : NumHist f φ P s0 s0
  | call {s s' : State K} {T : Sys} {xyz r : List K} : NumHist f φ P s0 s → SysOk f T → xyz.length = 3 * T.E → r.length = T.E →
      IndexIn A φ f r → compute (f.zbl.map (loadZbl φ)) P (graphOf T xyz r) s = some s' → NumHist f φ P s0 s'
  | buffers {s s' : State K} : NumHist f φ P s0 s → s'.P0 = s.P0 → s'.P1 = s.P1 → s'.ro2 = s.ro2 → NumHist f φ P s0 s'

/-- C101: whatever the arithmetic does, a well-formed file is loaded, and every call whose lengths fall into intervals of the
tables runs without an access outside a buffer and without an exception, also if the numbers are not numbers, if the lengths are
not those of the bond vectors, or if the harmonics return anything. -/
theorem C101_any_arithmetic [A : Arith K] (f : File) (hf : FileOk f) (srt : List (List (List ℕ)) → List (List (List ℕ))) (hsrt : Poly.SortFn srt)
    (φ : ℝ → K) (sph : K → K → K → ℕ → K) (dsph : K → K → K → ℕ → ℕ → K) (nrm : K) :
    ∃ P s0, Num.load srt φ sph dsph nrm f = some (P, s0) ∧ ∀ s, NumHist f φ P s0 s → ∀ T, SysOk f T → ∀ xyz r : List K,
      xyz.length = 3 * T.E → r.length = T.E → IndexIn A φ f r →
      ∃ s', compute (f.zbl.map (loadZbl φ)) P (graphOf T xyz r) s = some s' ∧ s'.nodeEnergies.length = T.N ∧
        s'.nodeForces.length = 3 * T.E := by
  obtain ⟨P, s0, h1, h2, P', h3, h4⟩ := load_true (φ := φ) (sph := sph) (dsph := dsph) (nrm := nrm) hf hsrt
  refine ⟨P, s0, h1, fun s hs T hT xyz r hx hr hi => ?_⟩
  have ok : ∀ s, NumHist f φ P s0 s → SizeOk f s := by
    intro s hs
    induction hs with
    | init => exact h2
    | call _ hT hx hr hi e ih =>
      obtain ⟨s2, e1, -, -, e2⟩ := compute_true hf h3 h4 ih hT hx hr hi
      rw [e] at e1
      cases e1
      exact e2
    | buffers _ e1 e2 e3 ih => exact ih.buffers e1 e2 e3
  obtain ⟨s2, e1, e2, e3, -⟩ := compute_true hf h3 h4 (ok s hs) hT hx hr hi
  exact ⟨s2, e1, e2, e3⟩

/-- Thousandths with a value that is not a number: division by zero gives it, every operation passes it on. -/
def exArith : Arith (Option ℤ) where
  lit q := some ⌊1000 * q⌋
  ofInt z := some (1000 * z)
  add x y := do pure ((← x) + (← y))
  sub x y := do pure ((← x) - (← y))
  mul x y := do pure ((← x) * (← y) / 1000)
  div x y := do if (← y) = 0 then none else pure (1000 * (← x) / (← y))
  neg x := do pure (- (← x))
  le x y := match x, y with
    | some x, some y => decide (x ≤ y)
    | _, _ => false
  trunc x := (x.getD 0) / 1000
  exp x := do pure (1000 + (← x))
  pow x y := do pure ((← x) + (← y))
  powi x n := do if (← x) = 0 ∧ n < 0 then none else pure ((← x) ^ n.toNat)
  dot _ _ ps := ps.foldr (fun p s => do pure ((← p.1) * (← p.2) / 1000 + (← s))) (some 0)

noncomputable def exConv (x : ℝ) : Option ℤ := some ⌊1000 * x⌋

/-- The hypotheses hold for two atoms, the bond of one of which has no number as first component. -/
example : SysOk exFile exSys ∧ [none, some 0, some 3, some (-1200), none, some 0].length = 3 * exSys.E ∧ [some 1200, some 1999].length = exSys.E ∧
    IndexIn exArith exConv exFile [some 1200, some 1999] := by
  refine ⟨exSys_ok, rfl, rfl, ?_⟩
  have e1 : exConv exFile.splH = some 1000 := by simp only [exConv, exFile, mul_one]; norm_num
  have e2 : exConv exFile.A0h = some 1000 := by simp only [exConv, exFile, mul_one]; norm_num
  have key : ∀ x ∈ [some 1200, some (1999 : ℤ)], IdxIn exArith x (some 1000) 3 := by
    intro x hx
    simp only [List.mem_cons, List.not_mem_nil, or_false] at hx
    rcases hx with rfl | rfl
    · exact ⟨by decide, by decide⟩
    · exact ⟨by decide, by decide⟩
  intro x hx
  rw [e1, e2]
  refine ⟨⟨key x hx, key x hx⟩, fun _ w hw => ?_, fun h => absurd h (by decide)⟩
  rw [List.eq_of_mem_replicate hw]
  exact key x hx

end Verif.Props
