import Verif.Lemmas.MACE.Join
import Mathlib.Tactic.IntervalCases

/-! # Property theorems: MACE evaluator (C01 - C07, C34, C52)

`load` is `load_from_json` on a file (`FileOk`: the shapes of a well-formed file); `sph`, `dsph` are the external harmonics and
their gradient, `srt` is `std::sort`.  An input is a discrete part `T` (nodes, types, neighbours) and bond vectors `X`.
-/

namespace Verif.Props
open Verif.MACE Verif.Spec Verif.Spline

variable (f : File) (sph : ℝ → ℝ → ℝ → ℕ → ℝ) (dsph : ℝ → ℝ → ℝ → ℕ → ℕ → ℝ)

/-- States the evaluator can be in, from the freshly loaded object `s0`: after complete calls with well-formed inputs, after
arbitrary changes of the plain buffers (calls with any other inputs, also aborted ones), and after evaluations of any of the
polynomial or network objects it owns. -/
inductive Hist (P : Params ℝ) (s0 : State ℝ) : State ℝ → Prop
  | init : Hist P s0 s0
  | call {s s' : State ℝ} {T : Sys} {X : ℕ → ℕ → ℝ} : Hist P s0 s → SysOk f T → Inside f T X →
      computeNodeEnergiesForces f.zbl P (T.graph X) s = some s' → Hist P s0 s'
  | buffers {s s' : State ℝ} : Hist P s0 s → s'.P0 = s.P0 → s'.P1 = s.P1 → s'.ro2 = s.ro2 → Hist P s0 s'
  | poly0 {s : State ℝ} {j : ℕ} {p p' : Poly.Poly ℝ} : Hist P s0 s → s.P0[j]? = some p → Poly.Reach p p' →
      Hist P s0 { s with P0 := s.P0.set j p' }
  | poly1 {s : State ℝ} {j : ℕ} {p p' : Poly.Poly ℝ} : Hist P s0 s → s.P1[j]? = some p → Poly.Reach p p' →
      Hist P s0 { s with P1 := s.P1.set j p' }
  | readout {s : State ℝ} {M : MLP.MLP ℝ} : Hist P s0 s → MLP.Reach P.ex s.ro2 M → Hist P s0 { s with ro2 := M }

/-- The normalisations by which the code divides are not zero (they are `1` when switched off). -/
def ScalesNonzero (T : Sys) (X : ℕ → ℕ → ℝ) : Prop :=
  ∀ i < T.N, (confOf f sph T X).s0 i ≠ 0 ∧ (confOf f sph T X).s1 i ≠ 0

/-- `X` with component `a` of bond vector `e` increased by `τ`. -/
def moved (X : ℕ → ℕ → ℝ) (e a : ℕ) (τ : ℝ) : ℕ → ℕ → ℝ := fun e' a' => if e' = e ∧ a' = a then X e a + τ else X e' a'

section lemmas
variable {f sph dsph} {P : Params ℝ} {s0 s : State ℝ}

theorem polys_set {n j : ℕ} {Q : ℕ → Poly.Poly ℝ → Prop} {l : List (Poly.Poly ℝ)} (h : PolysAt n Q l) {p p' : Poly.Poly ℝ}
    (hp : l[j]? = some p) (hQ : ∀ j p, Q j p → Poly.Reach p p' → Q j p') (hr : Poly.Reach p p') : PolysAt n Q (l.set j p') := by
  by_cases hj : j < n
  · obtain ⟨q, h1, h2⟩ := h j hj
    rw [hp] at h1
    cases h1
    exact h.set (hQ j p h2 hr)
  · intro j' hj'
    obtain ⟨q, h1, h2⟩ := h j' hj'
    exact ⟨q, by rw [List.getElem?_set_ne (by omega)]; exact h1, h2⟩

theorem Hist.ok (hf : FileOk f) (hP : Loaded f sph dsph P) (h0 : StOk f s0) (h : Hist f P s0 s) : StOk f s := by
  induction h with
  | init => exact h0
  | call _ hT hX e ih =>
    obtain ⟨s', h1, _, _, h2⟩ := compute_spec hf hT hP hX ih
    rw [h1] at e
    cases e
    exact h2
  | buffers _ e1 e2 e3 ih => exact ⟨by rw [e1]; exact ih.P0, by rw [e2]; exact ih.P1, by rw [e3]; exact ih.ro2⟩
  | poly0 _ hp hr ih => exact ⟨polys_set ih.P0 hp (fun _ _ h hr => h.reach hr) hr, ih.P1, ih.ro2⟩
  | poly1 _ hp hr ih => exact ⟨ih.P0, polys_set ih.P1 hp (fun _ _ h hr => h.reach hr) hr, ih.ro2⟩
  | readout _ hr ih =>
    refine ⟨ih.P0, ih.P1, ?_, ih.ro2.2.like (MLP.reach_like hr)⟩
    exact (MLP.reach_like hr).2.2.1.trans ih.ro2.1

theorem sum_tab (n : ℕ) (g : ℕ → ℝ) : (tab n g).sum = ∑ i ∈ Finset.range n, g i := by
  induction n with
  | zero => rfl
  | succ n ih =>
    rw [Finset.sum_range_succ, ← ih]
    simp [tab, List.range_succ]

theorem inside_open {T : Sys} {X : ℕ → ℕ → ℝ} (hX : Inside f T X) (D : ℕ → ℕ → ℝ) :
    ∀ᶠ τ : ℝ in nhds 0, Inside f T (fun e a => X e a + τ * D e a) := by
  have hcont : ∀ e, Continuous (fun τ : ℝ => len (fun a => X e a + τ * D e a)) := by
    intro e; unfold len; fun_prop
  have h0 : ∀ e, len (fun a => X e a + 0 * D e a) = len (X e) := by intro e; simp
  have hlt : ∀ e (b : ℝ), len (X e) < b → ∀ᶠ τ : ℝ in nhds 0, len (fun a => X e a + τ * D e a) < b := by
    intro e b hb
    exact (hcont e).continuousAt.eventually (p := fun y => y < b) (by dsimp only; rw [h0]; exact gt_mem_nhds hb)
  have hgt : ∀ e, 0 < len (X e) → ∀ᶠ τ : ℝ in nhds 0, 0 < len (fun a => X e a + τ * D e a) := by
    intro e hb
    exact (hcont e).continuousAt.eventually (p := fun y => 0 < y) (by dsimp only; rw [h0]; exact lt_mem_nhds hb)
  have hall : ∀ e (h : ℝ) (l : List (List ℝ)), (∀ w ∈ l, len (X e) < h * (w.length - 1 : ℕ)) →
      ∀ᶠ τ : ℝ in nhds 0, ∀ w ∈ l, len (fun a => X e a + τ * D e a) < h * (w.length - 1 : ℕ) := by
    intro e h l
    induction l with
    | nil => intro _; simp
    | cons w l ih =>
      intro hw
      have h1 := hlt e _ (hw w List.mem_cons_self)
      have h2 := ih (fun w' hw' => hw w' (List.mem_cons_of_mem _ hw'))
      filter_upwards [h1, h2] with τ a1 a2
      intro w' hw'
      rcases List.mem_cons.mp hw' with rfl | h'
      · exact a1
      · exact a2 w' h'
  have hcond : ∀ (c : Prop) (p : ℝ → Prop), (c → ∀ᶠ τ in nhds (0 : ℝ), p τ) → ∀ᶠ τ in nhds (0 : ℝ), c → p τ := by
    intro c p h
    by_cases hc : c
    · filter_upwards [h hc] with τ a; exact fun _ => a
    · exact Filter.Eventually.of_forall (fun τ h' => absurd h' hc)
  have hE : ∀ e ∈ Finset.range T.E, ∀ᶠ τ : ℝ in nhds 0, InTable f (len (fun a => X e a + τ * D e a)) := by
    intro e he
    obtain ⟨b1, b2, b3, b4, b5⟩ := hX e (Finset.mem_range.mp he)
    filter_upwards [hgt e b1, hlt e _ b2, hlt e _ b3, hcond _ _ (fun h => hall e _ _ (b4 h)), hcond _ _ (fun h => hall e _ _ (b5 h))]
      with τ a1 a2 a3 a4 a5
    exact ⟨a1, a2, a3, a4, a5⟩
  have := (Filter.eventually_all_finset (Finset.range T.E)).mpr hE
  filter_upwards [this] with τ h e he
  exact h e (Finset.mem_range.mpr he)

theorem moved_eq (X : ℕ → ℕ → ℝ) (e a : ℕ) (τ : ℝ) :
    moved X e a τ = fun e' a' => X e' a' + τ * (if e' = e ∧ a' = a then 1 else 0) := by
  funext e' a'
  unfold moved
  by_cases h : e' = e ∧ a' = a
  · obtain ⟨rfl, rfl⟩ := h; simp
  · simp [h]

theorem total_eq {T : Sys} {X : ℕ → ℕ → ℝ} {s' : State ℝ} (h : s'.nodeEnergies = tab T.N (energy (netOf f) (confOf f sph T X))) :
    s'.nodeEnergies.sum = ∑ i ∈ Finset.range T.N, energy (netOf f) (confOf f sph T X) i := by
  rw [h, sum_tab]

end lemmas

section props
variable {srt : List (List (List ℕ)) → List (List (List ℕ))}

/-- C01: after a call, `node_forces[3e+a]` is minus the partial derivative of the summed node energies in component `a` of bond
vector `e` (and the forces give the derivative in every direction `D`); all inputs near `X` are again valid inputs, and the
function `Etot` differentiated is the one the code returns on any object with any history. -/
theorem C01_forces_are_minus_gradient (hf : FileOk f) (hsrt : Poly.SortFn srt)
    (hsph : IsSphGrad sph dsph ((f.lmax + 1) * (f.lmax + 1))) (T : Sys) (hT : SysOk f T) :
    ∃ P s0, load srt sph dsph f = some (P, s0) ∧ ∃ Etot : (ℕ → ℕ → ℝ) → ℝ,
      (∀ X, Inside f T X → ∀ s, Hist f P s0 s →
        (computeNodeEnergiesForces f.zbl P (T.graph X) s).map (fun s' => s'.nodeEnergies.sum) = some (Etot X)) ∧
      ∀ X, Inside f T X → ScalesNonzero f sph T X → ∀ s, Hist f P s0 s →
        ∃ s', ∃ F : ℕ → ℕ → ℝ, computeNodeEnergiesForces f.zbl P (T.graph X) s = some s' ∧ s'.nodeForces.length = 3 * T.E ∧
          (∀ e < T.E, ∀ a < 3, s'.nodeForces[3 * e + a]? = some (F e a) ∧
            (∀ᶠ τ in nhds 0, Inside f T (moved X e a τ)) ∧ HasDerivAt (fun τ => Etot (moved X e a τ)) (- F e a) 0) ∧
          ∀ D : ℕ → ℕ → ℝ, (∀ᶠ τ in nhds (0 : ℝ), Inside f T (fun e a => X e a + τ * D e a)) ∧
            HasDerivAt (fun τ : ℝ => Etot (fun e a => X e a + τ * D e a))
              (- ∑ e ∈ Finset.range T.E, ∑ a ∈ Finset.range 3, F e a * D e a) 0 := by
  obtain ⟨P, s0, h1, h2, h3⟩ := load_spec hf hsrt sph dsph
  refine ⟨P, s0, h1, fun X => ∑ i ∈ Finset.range T.N, energy (netOf f) (confOf f sph T X) i, fun X hX s hs => ?_,
    fun X hX hsc s hs => ?_⟩
  · obtain ⟨s', e1, e2, _, _⟩ := compute_spec hf hT h2 hX (hs.ok hf h2 h3)
    rw [e1, Option.map_some, total_eq e2]
  · obtain ⟨s', e1, e2, e3, e4⟩ := compute_spec hf hT h2 hX (hs.ok hf h2 h3)
    have hder := total_hasDerivAt hf hT hX hsph e4 (fun i hi => (hsc i hi).1) (fun i hi => (hsc i hi).2)
    refine ⟨s', forceOf f sph dsph T X, e1, by rw [e3, length_tab2, mul_comm], fun e he a ha => ⟨?_, ?_, ?_⟩,
      fun D => ⟨inside_open hX D, hder D⟩⟩
    · rw [e3, mul_comm 3, getElem?_tab2 he ha]
    · simp only [moved_eq]; exact inside_open hX _
    · simp only [moved_eq]
      refine (hder (fun e' a' => if e' = e ∧ a' = a then 1 else 0)).congr_deriv ?_
      rw [Finset.sum_eq_single e, Finset.sum_eq_single a]
      · simp
      · intro a' _ hne; simp [hne]
      · intro h; exact absurd (Finset.mem_range.mpr ha) h
      · intro e' _ hne; simp [hne]
      · intro h; exact absurd (Finset.mem_range.mpr he) h

/-- C02: no access outside a buffer and no exception, whatever happened to the object before. -/
theorem C02_no_invalid_access (hf : FileOk f) (hsrt : Poly.SortFn srt) :
    ∃ P s0, load srt sph dsph f = some (P, s0) ∧ ∀ s, Hist f P s0 s → ∀ T, SysOk f T → ∀ X, Inside f T X →
      ∃ s', computeNodeEnergiesForces f.zbl P (T.graph X) s = some s' ∧ s'.nodeEnergies.length = T.N ∧
        s'.nodeForces.length = 3 * T.E := by
  obtain ⟨P, s0, h1, h2, h3⟩ := load_spec hf hsrt sph dsph
  refine ⟨P, s0, h1, fun s hs T hT X hX => ?_⟩
  obtain ⟨s', e1, e2, e3, _⟩ := compute_spec hf hT h2 hX (hs.ok hf h2 h3)
  exact ⟨s', e1, by rw [e2]; simp, by rw [e3, length_tab2, mul_comm]⟩

/-- C03: the results are those of a freshly loaded object. -/
theorem C03_history_independent (hf : FileOk f) (hsrt : Poly.SortFn srt) :
    ∃ P s0, load srt sph dsph f = some (P, s0) ∧ ∀ s, Hist f P s0 s → ∀ T, SysOk f T → ∀ X, Inside f T X →
      (computeNodeEnergiesForces f.zbl P (T.graph X) s).map (fun s' => (s'.nodeEnergies, s'.nodeForces))
        = (computeNodeEnergiesForces f.zbl P (T.graph X) s0).map (fun s' => (s'.nodeEnergies, s'.nodeForces)) := by
  obtain ⟨P, s0, h1, h2, h3⟩ := load_spec hf hsrt sph dsph
  refine ⟨P, s0, h1, fun s hs T hT X hX => ?_⟩
  obtain ⟨s', e1, e2, e3, _⟩ := compute_spec hf hT h2 hX (hs.ok hf h2 h3)
  obtain ⟨s'', k1, k2, k3, _⟩ := compute_spec hf hT h2 hX h3
  rw [e1, k1, Option.map_some, Option.map_some, e2, e3, k2, k3]

/-- C04: `node_energies[i]` is the energy of the two-layer network `netOf f` (Spec/MACE.lean) with the edge features
`confOf f sph T X` (Spec/MACEFile.lean). -/
theorem C04_node_energies (hf : FileOk f) (hsrt : Poly.SortFn srt) :
    ∃ P s0, load srt sph dsph f = some (P, s0) ∧ ∀ s, Hist f P s0 s → ∀ T, SysOk f T → ∀ X, Inside f T X →
      ScalesNonzero f sph T X → ∃ s', computeNodeEnergiesForces f.zbl P (T.graph X) s = some s' ∧
        s'.nodeEnergies.length = T.N ∧
        ∀ i < T.N, s'.nodeEnergies[i]? = some (energy (netOf f) (confOf f sph T X) i) := by
  obtain ⟨P, s0, h1, h2, h3⟩ := load_spec hf hsrt sph dsph
  refine ⟨P, s0, h1, fun s hs T hT X hX _ => ?_⟩
  obtain ⟨s', e1, e2, _, _⟩ := compute_spec hf hT h2 hX (hs.ok hf h2 h3)
  exact ⟨s', e1, by rw [e2]; simp, fun i hi => by rw [e2, getElem?_tab_lt hi]⟩

/-- C07: if node `i` of one input and node `i'` of another have the same environment (type, bond vectors and types of the
neighbours, in any order), and so have their corresponding neighbours, then their energies are equal. -/
theorem C07_locality (hf : FileOk f) (hsrt : Poly.SortFn srt) :
    ∃ P s0, load srt sph dsph f = some (P, s0) ∧ ∀ s1 s2, Hist f P s0 s1 → Hist f P s0 s2 →
      ∀ T T' X X', SysOk f T → SysOk f T' → Inside f T X → Inside f T' X' → ∀ i < T.N, ∀ i' < T'.N, ∀ σ,
      SameEnv T X T' X' i i' σ →
      (∀ e ∈ T.edg i, ∃ σ', SameEnv T X T' X' (nthN T.idx e) (nthN T'.idx (σ e)) σ') →
      ∃ t1 t2, computeNodeEnergiesForces f.zbl P (T.graph X) s1 = some t1 ∧
        computeNodeEnergiesForces f.zbl P (T'.graph X') s2 = some t2 ∧
        ∃ E, t1.nodeEnergies[i]? = some E ∧ t2.nodeEnergies[i']? = some E := by
  obtain ⟨P, s0, h1, h2, h3⟩ := load_spec hf hsrt sph dsph
  refine ⟨P, s0, h1, fun s1 s2 hs1 hs2 T T' X X' hT hT' hX hX' i hi i' hi' σ hσ hnb => ?_⟩
  obtain ⟨t1, e1, e2, _, _⟩ := compute_spec hf hT h2 hX (hs1.ok hf h2 h3)
  obtain ⟨t2, k1, k2, _, _⟩ := compute_spec hf hT' h2 hX' (hs2.ok hf h2 h3)
  refine ⟨t1, t2, e1, k1, _, by rw [e2, getElem?_tab_lt hi], ?_⟩
  rw [k2, getElem?_tab_lt hi']
  refine congrArg some (hσ.energy hi hi' (fun e he LM k => ?_))
  obtain ⟨σ', h'⟩ := hnb e he
  exact h'.h1 (hT.nbr e (edg_lt hi he)) (hT'.nbr _ (edg_lt hi' (hσ.bij.1 he))) k LM

/-- An input and a renumbered one: node `i` becomes `π i`, edge `e` becomes `σ e`. -/
structure Renumbered (T : Sys) (X : ℕ → ℕ → ℝ) (T' : Sys) (X' : ℕ → ℕ → ℝ) (π σ : ℕ → ℕ) : Prop where
  N : T'.N = T.N
  bij : Set.BijOn π (Set.Iio T.N) (Set.Iio T.N)
  env : ∀ i < T.N, SameEnv T X T' X' i (π i) σ
  nbr : ∀ e < T.E, nthN T'.idx (σ e) = π (nthN T.idx e)

theorem Renumbered.energy {T T' : Sys} {X X' : ℕ → ℕ → ℝ} {π σ : ℕ → ℕ} (h : Renumbered T X T' X' π σ) (hT : SysOk f T)
    {i : ℕ} (hi : i < T.N) :
    energy (netOf f) (confOf f sph T' X') (π i) = energy (netOf f) (confOf f sph T X) i := by
  have hπ : ∀ j < T.N, π j < T'.N := fun j hj => by rw [h.N]; exact h.bij.1 hj
  refine (h.env i hi).energy hi (hπ i hi) (fun e he LM k => ?_)
  have hn := hT.nbr e (edg_lt hi he)
  rw [h.nbr e (edg_lt hi he)]
  exact (h.env _ hn).h1 hn (hπ _ hn) k LM

theorem Renumbered.total {T T' : Sys} {X X' : ℕ → ℕ → ℝ} {π σ : ℕ → ℕ} (h : Renumbered T X T' X' π σ) (hT : SysOk f T) :
    ∑ i ∈ Finset.range T'.N, Spec.energy (netOf f) (confOf f sph T' X') i
      = ∑ i ∈ Finset.range T.N, Spec.energy (netOf f) (confOf f sph T X) i := by
  rw [h.N]
  symm
  refine Finset.sum_bij (fun i _ => π i) (fun i hi => Finset.mem_range.mpr (h.bij.1 (Finset.mem_range.mp hi)))
    (fun i hi j hj e => h.bij.2.1 (Finset.mem_range.mp hi) (Finset.mem_range.mp hj) e) (fun i hi => ?_)
    (fun i hi => (h.energy f sph hT (Finset.mem_range.mp hi)).symm)
  obtain ⟨j, h1, h2⟩ := h.bij.2.2 (Finset.mem_range.mp hi)
  exact ⟨j, Finset.mem_range.mpr h1, h2⟩

/-- Renumbered inputs cover each other. -/
theorem Renumbered.covers {T T' : Sys} {X X' : ℕ → ℕ → ℝ} {π σ : ℕ → ℕ} (h : Renumbered T X T' X' π σ) (hT : SysOk f T) :
    Covers T X T' X' π σ := by
  have hπ : ∀ j < T.N, π j < T'.N := fun j hj => by rw [h.N]; exact h.bij.1 hj
  refine ⟨hπ, h.env, h.nbr, fun v hv => ⟨?_, ?_, ?_⟩⟩
  · rintro e ⟨he, rfl⟩
    obtain ⟨hj, hm⟩ := owner_spec he
    exact ⟨edg_lt (hπ _ hj) ((h.env _ hj).bij.1 hm), h.nbr e he⟩
  · rintro e ⟨he, -⟩ e' ⟨he', -⟩ heq
    obtain ⟨hj, hm⟩ := owner_spec he
    obtain ⟨hj', hm'⟩ := owner_spec he'
    have h1 := (h.env _ hj).bij.1 hm
    have h2 := (h.env _ hj').bij.1 hm'
    rw [heq] at h1
    have h3 : π (T.owner e) = π (T.owner e') := edges_disj (nn := T'.nn) h1 h2
    have h4 : T.owner e = T.owner e' := h.bij.2.1 hj hj' h3
    rw [h4] at hm
    exact (h.env _ hj').bij.2.1 hm hm' heq
  · rintro e' ⟨he', hv'⟩
    obtain ⟨hj, hm⟩ := owner_spec he'
    rw [h.N] at hj
    obtain ⟨i, hi, hi'⟩ := h.bij.2.2 hj
    rw [← hi'] at hm
    obtain ⟨e, h1, rfl⟩ := (h.env i hi).bij.2.2 hm
    have he := edg_lt hi h1
    refine ⟨e, ⟨he, ?_⟩, rfl⟩
    rw [h.nbr e he] at hv'
    exact h.bij.2.1 (hT.nbr e he) hv hv'

/-- C06: renumbering the atoms permutes the node energies and leaves the total unchanged; the forces are permuted with the
edges. -/
theorem C06_relabelling (hf : FileOk f) (hsrt : Poly.SortFn srt) :
    ∃ P s0, load srt sph dsph f = some (P, s0) ∧ ∀ s1 s2, Hist f P s0 s1 → Hist f P s0 s2 →
      ∀ T T' X X' π σ, SysOk f T → SysOk f T' → Inside f T X → Inside f T' X' → Renumbered T X T' X' π σ →
      ∃ t1 t2, computeNodeEnergiesForces f.zbl P (T.graph X) s1 = some t1 ∧
        computeNodeEnergiesForces f.zbl P (T'.graph X') s2 = some t2 ∧
        (∀ i < T.N, ∃ E, t1.nodeEnergies[i]? = some E ∧ t2.nodeEnergies[π i]? = some E) ∧
        t1.nodeEnergies.sum = t2.nodeEnergies.sum ∧
        ∀ e < T.E, ∀ a < 3, ∃ F, t1.nodeForces[3 * e + a]? = some F ∧ t2.nodeForces[3 * σ e + a]? = some F := by
  obtain ⟨P, s0, h1, h2, h3⟩ := load_spec hf hsrt sph dsph
  refine ⟨P, s0, h1, fun s1 s2 hs1 hs2 T T' X X' π σ hT hT' hX hX' hr => ?_⟩
  obtain ⟨t1, e1, e2, e3, e4⟩ := compute_spec hf hT h2 hX (hs1.ok hf h2 h3)
  obtain ⟨t2, k1, k2, k3, k4⟩ := compute_spec hf hT' h2 hX' (hs2.ok hf h2 h3)
  refine ⟨t1, t2, e1, k1, fun i hi => ⟨_, by rw [e2, getElem?_tab_lt hi], ?_⟩, ?_, ?_⟩
  · rw [k2, getElem?_tab_lt (by rw [hr.N]; exact hr.bij.1 hi), hr.energy f sph hT hi]
  · rw [total_eq e2, total_eq k2, hr.total f sph hT]
  · intro e he a ha
    have hc := hr.covers f hT
    exact ⟨_, by rw [e3, mul_comm 3, getElem?_tab2 he ha], by
      rw [k3, mul_comm 3, getElem?_tab2 (hc.lt he) ha, hc.force hT.nbr he ha]⟩

/-- C05: reordering the neighbours of the atoms leaves every node energy unchanged (and moves the forces along). -/
theorem C05_neighbour_order (hf : FileOk f) (hsrt : Poly.SortFn srt) :
    ∃ P s0, load srt sph dsph f = some (P, s0) ∧ ∀ s1 s2, Hist f P s0 s1 → Hist f P s0 s2 →
      ∀ T T' X X' σ, SysOk f T → SysOk f T' → Inside f T X → Inside f T' X' → T'.N = T.N →
      (∀ i < T.N, SameEnv T X T' X' i i σ) → (∀ e < T.E, nthN T'.idx (σ e) = nthN T.idx e) →
      ∃ t1 t2, computeNodeEnergiesForces f.zbl P (T.graph X) s1 = some t1 ∧
        computeNodeEnergiesForces f.zbl P (T'.graph X') s2 = some t2 ∧ t1.nodeEnergies = t2.nodeEnergies ∧
        ∀ e < T.E, ∀ a < 3, ∃ F, t1.nodeForces[3 * e + a]? = some F ∧ t2.nodeForces[3 * σ e + a]? = some F := by
  obtain ⟨P, s0, h0, h⟩ := C06_relabelling f sph dsph hf hsrt
  obtain ⟨P', s0', h1, h2, h3⟩ := load_spec hf hsrt sph dsph
  rw [h0] at h1
  cases h1
  refine ⟨P, s0, h0, fun s1 s2 hs1 hs2 T T' X X' σ hT hT' hX hX' hN hσ hi => ?_⟩
  have hr : Renumbered T X T' X' id σ := ⟨hN, Set.bijOn_id _, hσ, hi⟩
  obtain ⟨t1, t2, k1, k2, k3, _, k5⟩ := h s1 s2 hs1 hs2 T T' X X' id σ hT hT' hX hX' hr
  obtain ⟨t1', e1, e2, _, _⟩ := compute_spec hf hT h2 hX (hs1.ok hf h2 h3)
  obtain ⟨t2', e3, e4, _, _⟩ := compute_spec hf hT' h2 hX' (hs2.ok hf h2 h3)
  rw [k1] at e1
  rw [k2] at e3
  cases e1
  cases e3
  refine ⟨t1, t2, k1, k2, ?_, k5⟩
  rw [e2, e4, hN]
  exact tab_congr (fun i hi => (hr.energy f sph hT hi).symm)

/-- C07, second half: two systems put side by side in one call (second numbered after the first, no edges between them) get
the energies and forces of the separate calls. -/
theorem C07_separate_systems (hf : FileOk f) (hsrt : Poly.SortFn srt) :
    ∃ P s0, load srt sph dsph f = some (P, s0) ∧ ∀ s s1 s2, Hist f P s0 s → Hist f P s0 s1 → Hist f P s0 s2 →
      ∀ T1 T2 X1 X2, SysOk f T1 → SysOk f T2 → Inside f T1 X1 → Inside f T2 X2 →
      ∃ t t1 t2, computeNodeEnergiesForces f.zbl P ((T1.join T2).graph (joinX T1 X1 X2)) s = some t ∧
        computeNodeEnergiesForces f.zbl P (T1.graph X1) s1 = some t1 ∧
        computeNodeEnergiesForces f.zbl P (T2.graph X2) s2 = some t2 ∧ t.nodeEnergies = t1.nodeEnergies ++ t2.nodeEnergies ∧
        t.nodeForces = t1.nodeForces ++ t2.nodeForces := by
  obtain ⟨P, s0, h1, h2, h3⟩ := load_spec hf hsrt sph dsph
  refine ⟨P, s0, h1, fun s s1 s2 hs hs1 hs2 T1 T2 X1 X2 hT1 hT2 hX1 hX2 => ?_⟩
  have hT := join_ok hT1 hT2
  have hX := join_inside hT1 hT2 hX1 hX2
  obtain ⟨t, e1, e2, e3, e4⟩ := compute_spec hf hT h2 hX (hs.ok hf h2 h3)
  obtain ⟨t1, k1, k2, k3, k4⟩ := compute_spec hf hT1 h2 hX1 (hs1.ok hf h2 h3)
  obtain ⟨t2, l1, l2, l3, l4⟩ := compute_spec hf hT2 h2 hX2 (hs2.ok hf h2 h3)
  refine ⟨t, t1, t2, e1, k1, l1, by rw [e2, k2, l2, join_energies hT1 hT2], ?_⟩
  rw [e3, k3, l3]
  exact join_forces hT1 hT2

/-- C34: the pair index is symmetric, below `n(n+1)/2`, injective on unordered pairs, and the position of the pair in the list
which the extraction script writes. -/
theorem C34_pair_index (n : ℕ) :
    (∀ a b, pairIndex n a b = pairIndex n b a) ∧
    (∀ a < n, ∀ b < n, pairIndex n a b < n * (n + 1) / 2) ∧
    (∀ a < n, ∀ b < n, ∀ a' < n, ∀ b' < n, pairIndex n a b = pairIndex n a' b' → (a = a' ∧ b = b') ∨ (a = b' ∧ b = a')) ∧
    (pairList n).length = n * (n + 1) / 2 ∧
    ∀ a < n, ∀ b < n, (pairList n)[pairIndex n a b]? = some (min a b, max a b) := by
  have hl : (pairList n).length = n * (n + 1) / 2 := by have := two_mul_pairList_length n; omega
  exact ⟨pairIndex_comm n, fun a ha b hb => hl ▸ pairIndex_lt ha hb, fun a ha b hb a' ha' b' hb' h => pairIndex_inj ha hb ha' hb' h,
    hl, fun a ha b hb => pairIndex_get ha hb⟩

/-- C52: after `compute_Y` the value stored for edge `e` is the harmonic of the bond vector `X e`, normalised by `2 sqrt pi`,
at the permuted coordinates `(z,x,y)`, and component `a` of the stored gradient is its derivative in coordinate `a` of `X e`. -/
theorem C52_harmonics_gradient (hf : FileOk f) (hsrt : Poly.SortFn srt)
    (hsph : IsSphGrad sph dsph ((f.lmax + 1) * (f.lmax + 1))) :
    ∃ P s0, load srt sph dsph f = some (P, s0) ∧ ∀ T X, SysOk f T → Inside f T X → ∀ s : State ℝ,
      ∃ s', computeY P (T.graph X) s = some s' ∧ ∀ e < T.E, ∀ lm < (f.lmax + 1) * (f.lmax + 1),
        s'.Y[e * ((f.lmax + 1) * (f.lmax + 1)) + lm]? = some (sph (X e 2) (X e 0) (X e 1) lm * (2 * Real.sqrt Real.pi)) ∧
        ∀ a < 3, ∃ d, s'.Yg[(3 * e + a) * ((f.lmax + 1) * (f.lmax + 1)) + lm]? = some d ∧
          HasDerivAt (fun τ => sph (moved X e a τ e 2) (moved X e a τ e 0) (moved X e a τ e 1) lm * (2 * Real.sqrt Real.pi)) d 0 := by
  obtain ⟨P, s0, h1, h2, h3⟩ := load_spec hf hsrt sph dsph
  refine ⟨P, s0, h1, fun T X hT hX s => ?_⟩
  obtain ⟨Y, Yg, xs, e1, e2⟩ := computeY_spec h2.wok (graph_ok (sph := sph) (X := X) hT le_rfl) s
  refine ⟨_, e1, fun e he lm hlm => ?_⟩
  rw [gx_Ex] at e2
  obtain ⟨rfl, rfl⟩ := e2 (by omega)
  have hM : (netOf f).M = (f.lmax + 1) * (f.lmax + 1) := rfl
  rw [hM]
  refine ⟨?_, fun a ha => ⟨harmD P (X e) a lm, ?_, ?_⟩⟩
  · rw [getElem?_tab2 he hlm]
    simp only [harm, h2.sph, h2.nrm]
  · rw [mul_comm 3 e]; exact T3_get _ he ha hlm
  · have hne : ¬ (X e 2 = 0 ∧ X e 0 = 0 ∧ X e 1 = 0) := by
      rintro ⟨a1, a2, a3⟩
      have := (hX e he).1
      simp [len, Finset.sum_range_succ, a1, a2, a3] at this
    simp only [moved_eq]
    have hd := (hsph (X e 2) (X e 0) (X e 1) (if 2 = a then 1 else 0) (if 0 = a then 1 else 0) (if 1 = a then 1 else 0) lm hlm
      hne).mul_const (2 * Real.sqrt Real.pi)
    simp only [true_and]
    refine hd.congr_deriv ?_
    simp only [harmD, h2.dsph, h2.nrm]
    interval_cases a <;> simp

end props

end Verif.Props
