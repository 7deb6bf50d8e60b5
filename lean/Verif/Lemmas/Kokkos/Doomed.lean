import Verif.Lemmas.Kokkos.Radial

/-! # Kernels that reach undefined behaviour in every interleaving -/

namespace Verif.Par
variable {ι K : Type} [DecidableEq ι] [AddCommMonoid K]

/-- No complete execution exists: some part that is always executed is undefined. -/
inductive Doomed : Prog ι K → Prop
  | ub : Doomed .ub
  | rd {b p k} (h : ∀ x, Doomed (k x)) : Doomed (.rd b p k)
  | wr {b p v k} (h : Doomed k) : Doomed (.wr b p v k)
  | at {b p v k} (h : Doomed k) : Doomed (.at b p v k)
  | inner {n f k i} (hi : i < n) (h : Doomed (f i)) : Doomed (.par n f k)
  | after {n f k} (h : ∀ vs, Doomed (k vs)) : Doomed (.par n f k)

theorem Doomed.trans {p q : Prog ι K} {a : Act ι K} (h : Trans p a q) : Doomed p → Doomed q := by
  induction h with
  | rd b p k x => intro hd; cases hd with | rd h => exact h x
  | wr b p v k => intro hd; cases hd with | wr h => exact h
  | «at» b p v k => intro hd; cases hd with | «at» h => exact h
  | @inner n f k i a t hi ht ih =>
    intro hd
    cases hd with
    | @inner _ _ _ j hj h =>
      by_cases hij : j = i
      · subst hij
        refine .inner hj ?_
        rw [Function.update_self]
        exact ih h
      · refine .inner hj ?_
        rw [Function.update_of_ne hij]
        exact h
    | after h => exact .after h
  | @join n f k vs hr =>
    intro hd
    cases hd with
    | inner hj h => rw [hr _ hj] at h; cases h
    | after h => exact h _

theorem Doomed.outcome {p : Prog ι K} (hp : Doomed p) {m : Bufs ι K} {o : Option (List K × Bufs ι K)} (h : Outcome p m o) : o = none := by
  cases h with
  | fault => rfl
  | @done v m' h =>
    exfalso
    have key : ∀ c, Relation.ReflTransGen Step (p, m) c → Doomed c.1 := by
      intro c hc
      induction hc with
      | refl => exact hp
      | tail _ hs ih =>
        obtain ⟨a, ha, -⟩ := hs
        exact ih.trans ha
    cases key _ h

theorem Doomed.launch2 {p : Prog Bool K} (hp : Doomed p) (L : Launcher K) (v w : View K) : L.launch2 p v w = none := by
  unfold Launcher.launch2 Launcher.launch
  rw [hp.outcome (L.legal p _)]
  rfl

theorem Doomed.seq (p : Prog ι K) {q : Prog ι K} (hq : Doomed q) : Doomed (Prog.seq p q) := by
  unfold Prog.seq
  induction p with
  | ret => exact hq
  | ub => exact .ub
  | rd b p k ih => exact .rd ih
  | wr b p v k ih => exact .wr ih
  | «at» b p v k ih => exact .at ih
  | par n f k ihf ihk => exact .after ihk

theorem Doomed.opt {α : Type} (o : Option α) {k : α → Prog ι K} (h : ∀ a, o = some a → Doomed (k a)) : Doomed (Prog.opt o k) := by
  cases o with
  | none => exact .ub
  | some a => exact h a rfl

theorem Doomed.parFor {n i : ℕ} {body : ℕ → Prog ι K} (hi : i < n) (h : Doomed (body i)) : Doomed (Prog.parFor n body) := .inner hi h

end Verif.Par

namespace Verif.Kokkos
open Verif.Par Verif.Par.Prog
variable {K : Type} [Field K] [LinearOrder K] [FloorRing K]

/-- The spline kernels fail when the view of the derivatives has fewer rows than there are pairs. -/
theorem radialK_doomed {h : K} {co : View K} {S : ℕ} (hS : 0 < S) {pair : ℕ → ℕ → ℕ} {types ntypes : List ℕ} {il : View ℕ} {r : List K}
    {E : Bool → List ℕ} {n : ℕ} {ns : List ℕ} (hE : E true = n :: ns) (hn : n < r.length) : Doomed (radialK h co S pair types ntypes il r E) := by
  refine Doomed.parFor (i := n) hn (Doomed.opt _ (fun q _ => Doomed.parFor (i := 0) hS (Doomed.opt _ (fun cs _ => Doomed.seq _ ?_))))
  unfold put
  refine Doomed.opt _ (fun p hp => ?_)
  rw [hE] at hp
  simp [flat] at hp

end Verif.Kokkos
