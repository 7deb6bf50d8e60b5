import Verif.Base.Writes
import Verif.Base.View

/-!
# Host loops that fill views

`HW E body S val`: on views with extents `E`, the host code `body` stores `val` in the cells `S` and nothing else.
-/

namespace Verif.Kokkos

variable {K : Type}

/-- Instance of `Writes` for views. -/
abbrev HW (E : List ℕ) (body : View K → Option (View K)) (S : List ℕ → Prop) (val : List ℕ → K) : Prop :=
  Writes (fun v : View K => v.ext = E ∧ v.Ok) (fun v is => v.get is) body S val

theorem HW.set {E is : List ℕ} {p : ℕ} (h : flat E is 0 = some p) {val : List ℕ → K} {x : K} (hx : val is = x) :
    HW E (fun v => v.set is x) (fun js => js = is) val := by
  rintro v ⟨he, hv⟩
  subst he
  obtain ⟨w, h1, h2, h3, h4, h5⟩ := View.set_spec hv h x
  refine ⟨w, h1, ⟨h2, h3⟩, fun js => ⟨?_, h5 js⟩⟩
  rintro rfl
  show w.get js = _
  rw [h4, hx]

/-- Result when all cells are written. -/
theorem HW.all {E : List ℕ} {body : View K → Option (View K)} {S : List ℕ → Prop} {val : List ℕ → K} (h : HW E body S val)
    (hS : ∀ is p, flat E is 0 = some p → S is) {v : View K} (he : v.ext = E) (hv : v.Ok) :
    ∃ w, body v = some w ∧ w.ext = E ∧ w.Ok ∧ ∀ is p, flat E is 0 = some p → w.get is = some (val is) := by
  obtain ⟨w, h1, ⟨h2, h3⟩, h4⟩ := h v ⟨he, hv⟩
  exact ⟨w, h1, h2, h3, fun is p hp => (h4 is).1 (hS is p hp)⟩

end Verif.Kokkos
