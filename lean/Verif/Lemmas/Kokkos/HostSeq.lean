import Verif.Model.Kokkos.Load
import Verif.Lemmas.Kokkos.Basic

/-! # Loops of the host that fill a view -/

namespace Verif.Kokkos
open Verif.MACE

variable {K : Type}

/-- `B`, run on a view with extents `E` whose cells in `D` contain `f`, terminates with `g` in these cells and changes no other cell. -/
def Tr (E : List ℕ) (B : View K → Option (View K)) (D : Set (List ℕ)) (f g : List ℕ → K) : Prop :=
  ∀ v, v.ext = E → v.Ok → (∀ c ∈ D, v.get c = some (f c)) →
    ∃ w, B v = some w ∧ w.ext = E ∧ w.Ok ∧ (∀ c ∈ D, w.get c = some (g c)) ∧ ∀ c ∉ D, w.get c = v.get c

/-- Union over `i < n`. -/
def un (n : ℕ) (T : ℕ → Set (List ℕ)) : Set (List ℕ) := {c | ∃ i < n, c ∈ T i}

/-- Cell function of four indices. -/
def d4 [Zero K] (δ : ℕ → ℕ → ℕ → ℕ → K) : List ℕ → K
  | [a, b, c, d] => δ a b c d
  | _ => 0

variable {E : List ℕ} {D D' : Set (List ℕ)} {f g h : List ℕ → K}

theorem Tr.set {c : List ℕ} {p : ℕ} (hc : flat E c 0 = some p) {x : K} (hx : g c = x) : Tr E (fun v => v.set c x) {c} f g := by
  rintro v rfl hv -
  obtain ⟨w, h1, h2, h3, h4, h5⟩ := View.set_spec hv hc x
  exact ⟨w, h1, h2, h3, fun c' hc' => by rw [show c' = c from hc', h4, hx], fun c' hc' => h5 c' hc'⟩

theorem Tr.md {c : List ℕ} {p : ℕ} (hc : flat E c 0 = some p) {F : K → K} (hx : g c = F (f c)) :
    Tr E (fun v => mdV v c F) {c} f g := by
  rintro v rfl hv hf
  obtain ⟨w, h1, h2, h3, h4, h5⟩ := View.set_spec hv hc (F (f c))
  refine ⟨w, ?_, h2, h3, fun c' hc' => by rw [show c' = c from hc', h4, hx], fun c' hc' => h5 c' hc'⟩
  show (v.get c).bind _ = _
  rw [hf c rfl]
  exact h1

theorem Tr.seq {B B' : View K → Option (View K)} (h1 : Tr E B D f g) (h2 : Tr E B' D g h) :
    Tr E (fun v => (B v).bind B') D f h := by
  intro v he hv hf
  obtain ⟨w, k1, k2, k3, k4, k5⟩ := h1 v he hv hf
  obtain ⟨w', l1, l2, l3, l4, l5⟩ := h2 w k2 k3 k4
  refine ⟨w', by dsimp only; rw [k1, Option.bind_some]; exact l1, l2, l3, l4, fun c hc => by rw [l5 c hc, k5 c hc]⟩

theorem Tr.disj {B B' : View K → Option (View K)} (h1 : Tr E B D f g) (h2 : Tr E B' D' f g) (hd : Disjoint D D') :
    Tr E (fun v => (B v).bind B') (D ∪ D') f g := by
  intro v he hv hf
  obtain ⟨w, k1, k2, k3, k4, k5⟩ := h1 v he hv (fun c hc => hf c (Or.inl hc))
  have hd' := Set.disjoint_left.mp hd
  obtain ⟨w', l1, l2, l3, l4, l5⟩ := h2 w k2 k3 (fun c hc => by rw [k5 c (fun h => hd' h hc)]; exact hf c (Or.inr hc))
  refine ⟨w', by dsimp only; rw [k1, Option.bind_some]; exact l1, l2, l3, ?_, fun c hc => ?_⟩
  · rintro c (hc | hc)
    · rw [l5 c (hd' hc)]; exact k4 c hc
    · exact l4 c hc
  · rw [l5 c (fun h => hc (Or.inr h)), k5 c (fun h => hc (Or.inl h))]

theorem Tr.opt {α : Type} {o : Option α} {a : α} (ho : o = some a) {B : α → View K → Option (View K)} (h1 : Tr E (B a) D f g) :
    Tr E (fun v => o.bind (fun a => B a v)) D f g := by
  subst ho
  exact h1

theorem Tr.read {α : Type} {r : View K → Option α} {a : α} (hr : ∀ v : View K, (∀ c ∈ D, v.get c = some (f c)) → r v = some a)
    {B : α → View K → Option (View K)} (h1 : Tr E (B a) D f g) : Tr E (fun v => (r v).bind (fun a => B a v)) D f g := by
  intro v he hv hf
  obtain ⟨w, k⟩ := h1 v he hv hf
  refine ⟨w, ?_, k.2⟩
  dsimp only
  rw [hr v hf]
  exact k.1

theorem Tr.wider {B : View K → Option (View K)} {g' : List ℕ → K} (h1 : Tr E B D f g) (hD : D ⊆ D') (h2 : ∀ c ∈ D, g' c = g c)
    (h3 : ∀ c ∈ D', c ∉ D → g' c = f c) : Tr E B D' f g' := by
  intro v he hv hf
  obtain ⟨w, k1, k2, k3, k4, k5⟩ := h1 v he hv (fun c hc => hf c (hD hc))
  refine ⟨w, k1, k2, k3, fun c hc => ?_, fun c hc => k5 c (fun h => hc (hD h))⟩
  by_cases hcD : c ∈ D
  · rw [k4 c hcD, h2 c hcD]
  · rw [k5 c hcD, hf c hc, h3 c hc hcD]

theorem Tr.congr {B : View K → Option (View K)} {f' g' : List ℕ → K} (h1 : Tr E B D f g) (h2 : ∀ c ∈ D, f' c = f c)
    (h3 : ∀ c ∈ D, g' c = g c) : Tr E B D f' g' := by
  intro v he hv hf
  obtain ⟨w, k1, k2, k3, k4, k5⟩ := h1 v he hv (fun c hc => by rw [hf c hc, h2 c hc])
  exact ⟨w, k1, k2, k3, fun c hc => by rw [k4 c hc, h3 c hc], k5⟩

theorem Tr.loop {n : ℕ} {B : ℕ → View K → Option (View K)} {T : ℕ → Set (List ℕ)} (hB : ∀ i < n, Tr E (B i) (T i) f g)
    (hd : ∀ i < n, ∀ j < n, i ≠ j → Disjoint (T i) (T j)) : Tr E (Verif.loop n B) (un n T) f g := by
  intro v he hv hf
  obtain ⟨w, k1, k2, k3, k4⟩ := loop_inv (n := n) (body := B) (fun m (w : View K) => w.ext = E ∧ w.Ok ∧
      (∀ i < m, ∀ c ∈ T i, w.get c = some (g c)) ∧ ∀ c, (∀ i < m, c ∉ T i) → w.get c = v.get c) (s := v)
    ⟨he, hv, by simp, by simp⟩ (by
      rintro i hi w ⟨h1, h2, h3, h4⟩
      obtain ⟨w', l1, l2, l3, l4, l5⟩ := hB i hi w h1 h2 (fun c hc => by
        rw [h4 c (fun j hj hcj => Set.disjoint_left.mp (hd j (by omega) i hi (by omega)) hcj hc)]
        exact hf c ⟨i, hi, hc⟩)
      refine ⟨w', l1, l2, l3, fun j hj c hc => ?_, fun c hc => ?_⟩
      · rcases Nat.lt_or_ge j i with hji | hji
        · rw [l5 c (Set.disjoint_left.mp (hd j (by omega) i hi (by omega)) hc)]
          exact h3 j hji c hc
        · obtain rfl : j = i := by omega
          exact l4 c hc
      · rw [l5 c (hc i (by omega)), h4 c (fun j hj => hc j (by omega))])
  exact ⟨w, k1, k2, k3, fun c ⟨i, hi, hc⟩ => k4.1 i hi c hc, fun c hc => k4.2 c (fun i hi h => hc ⟨i, hi, h⟩)⟩

theorem Tr.iter {n : ℕ} {B : ℕ → View K → Option (View K)} (H : ℕ → List ℕ → K) (hB : ∀ i < n, Tr E (B i) D (H i) (H (i + 1))) :
    Tr E (Verif.loop n B) D (H 0) (H n) := by
  intro v he hv hf
  obtain ⟨w, k1, k2, k3, k4, k5⟩ := loop_inv (n := n) (body := B) (fun m (w : View K) => w.ext = E ∧ w.Ok ∧
      (∀ c ∈ D, w.get c = some (H m c)) ∧ ∀ c ∉ D, w.get c = v.get c) (s := v) ⟨he, hv, hf, fun _ _ => rfl⟩ (by
      rintro i hi w ⟨h1, h2, h3, h4⟩
      obtain ⟨w', l1, l2, l3, l4, l5⟩ := hB i hi w h1 h2 h3
      exact ⟨w', l1, l2, l3, l4, fun c hc => by rw [l5 c hc, h4 c hc]⟩)
  exact ⟨w, k1, k2, k3, k4, k5⟩

/-- A freshly allocated view, whatever it contains, after `B` has overwritten the cells `D`. -/
theorem Tr.run [Zero K] {B : View K → Option (View K)} (h1 : ∀ f, Tr E B D f g) {v : View K} (he : v.ext = E) (hv : v.Ok)
    (hD : ∀ c ∈ D, ∃ p, flat E c 0 = some p) :
    ∃ w, B v = some w ∧ w.ext = E ∧ w.Ok ∧ ∀ c ∈ D, w.get c = some (g c) := by
  obtain ⟨w, k1, k2, k3, k4, -⟩ := h1 (fun c => (v.get c).getD 0) v he hv (fun c hc => by
    obtain ⟨p, hp⟩ := hD c hc
    obtain ⟨x, hx⟩ := View.exists_get hv (by rw [he]; exact hp)
    show v.get c = some ((v.get c).getD 0)
    rw [hx, Option.getD_some])
  exact ⟨w, k1, k2, k3, k4⟩

end Verif.Kokkos
