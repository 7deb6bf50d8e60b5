import Verif.Model.PartsInt
import Verif.Lemmas.LammpsInts
import Verif.Lemmas.PolyCtor
import Mathlib.Data.List.GetD

/-! # C123: `int` overflow in the polynomial, perceptron and spline classes and in `sphericart_complex` -/

namespace Verif.IntIndex
open Verif.LammpsInts (seq_iff each_iff)

theorem prod_lt {i n j B : ℕ} (hi : i < n) (hj : j < B) : i * B + j < n * B := by
  have : (i + 1) * B ≤ n * B := Nat.mul_le_mul_right B hi
  rw [Nat.add_mul, one_mul] at this
  omega

theorem start_lt {i n B M : ℕ} (hi : i < n) (h : n * B ≤ M) (hM : 0 < M) : i * B < M := by
  rcases Nat.eq_zero_or_pos B with rfl | hB
  · simpa using hM
  · have := prod_lt hi hB; omega

theorem last_le {n B M : ℕ} (h : ∀ i < n, ∀ j < B, i * B + j < M) : n * B ≤ M := by
  rcases Nat.eq_zero_or_pos B with rfl | hB
  · simp
  rcases Nat.eq_zero_or_pos n with rfl | hn
  · simp
  have h1 := h (n - 1) (by omega) (B - 1) (by omega)
  have h2 : n * B = (n - 1) * B + B := by
    conv_lhs => rw [show n = n - 1 + 1 by omega, Nat.add_mul, one_mul]
  omega

section
variable {nv nodes : ℕ} {edges : List (ℕ × ℕ)} {B : ℕ}

theorem polyForward_ok (hn : nodes = nv + edges.length) (h : nodes < 2 ^ 31) : polyForward nv edges = some () := by
  refine seq ((narrow_iff _).2 (by omega)) (each_ok fun i hi => ?_)
  rw [ev_iff]; simp; omega

theorem polyBackward_ok (hn : nodes = nv + edges.length) (h : nodes < 2 ^ 31) : polyBackward nv edges = some () := by
  refine seq ((narrow_iff _).2 (by omega)) (each_ok fun i hi => ?_)
  refine seq ?_ ?_ <;> · rw [ev_iff]; simp; omega

theorem polyEvaluate_iff (hn : nodes = nv + edges.length) : polyEvaluate nv nodes edges = some () ↔ nodes < 2 ^ 31 := by
  unfold polyEvaluate
  rw [seq_iff, narrow_iff]
  exact ⟨fun h => h.2, fun h => ⟨polyForward_ok hn h, h⟩⟩

theorem polyGradient_iff (hn : nodes = nv + edges.length) : polyGradient nv nodes edges = some () ↔ nodes < 2 ^ 31 := by
  unfold polyGradient
  rw [seq_iff, seq_iff, seq_iff, narrow_iff]
  exact ⟨fun h => h.2.1, fun h => ⟨polyForward_ok hn h, h, h, polyBackward_ok hn h⟩⟩

theorem polyBNodes_iff : polyBNodes nodes B = some () ↔ nodes < 2 ^ 31 ∧ nodes * B ≤ 2 ^ 31 := by
  unfold polyBNodes
  rw [seq_iff, narrow_iff, each_iff]
  refine and_congr_right fun _ => ⟨fun h => last_le fun i hi j hj => ?_, fun h i hi => each_ok fun j hj => ?_⟩
  · have := (ev_iff _).1 (each_iff.1 (h i hi) j hj)
    simp at this; omega
  · have := prod_lt hi hj
    rw [ev_iff]; simp; omega

theorem polyBatch_iff (hn : nodes = nv + edges.length) (he : ∀ e ∈ edges, e.1 < nodes ∧ e.2 < nodes) :
    polyBatch nv nodes edges B = some () ↔ nodes < 2 ^ 31 ∧ nodes * B ≤ 2 ^ 31 ∧ nv * B < 2 ^ 31 := by
  unfold polyBatch
  simp only [seq_iff, polyBNodes_iff]
  constructor
  · rintro ⟨-, -, h, -, -, h'⟩
    unfold polyBExtract at h'
    have := (ev_iff _).1 (seq_iff.1 h').1
    simp at this
    exact ⟨h.1, h.2, by omega⟩
  · rintro ⟨h1, h2, h3⟩
    have hnv : ∀ {i j}, i < nv → j < B → i * B + j < 2 ^ 31 ∧ j * nv + i < 2 ^ 31 := fun hi hj => by
      have a := prod_lt hi hj
      have b := prod_lt hj hi
      rw [Nat.mul_comm B nv] at b
      exact ⟨by omega, by omega⟩
    have hE : ∀ i < edges.length, (nv + i) * B < 2 ^ 31 ∧ (edges.getD i (0, 0)).1 * B < 2 ^ 31 ∧ (edges.getD i (0, 0)).2 * B < 2 ^ 31 := by
      intro i hi
      have hm : edges.getD i (0, 0) ∈ edges := by
        rw [List.getD_eq_getElem _ _ hi]; exact List.getElem_mem hi
      exact ⟨start_lt (n := nodes) (by omega) h2 (by norm_num), start_lt (he _ hm).1 h2 (by norm_num), start_lt (he _ hm).2 h2 (by norm_num)⟩
    refine ⟨each_ok fun i hi => each_ok fun j hj => ?_, seq ((narrow_iff _).2 (by omega)) (each_ok fun i hi => ?_), ⟨h1, h2⟩, ⟨h1, h2⟩,
      seq ((narrow_iff _).2 (by omega)) (each_ok fun k hk => ?_), seq ?_ (each_ok fun i hi => each_ok fun j hj => ?_)⟩
    · have := hnv hi hj
      refine seq ?_ ?_ <;> · rw [ev_iff]; simp; omega
    · obtain ⟨a, b, c⟩ := hE i hi
      refine seq ?_ (seq ?_ ?_)
      · rw [ev_iff]; simp; omega
      · rw [ev_iff]; simpa using b
      · rw [ev_iff]; simpa using c
    · obtain ⟨a, b, c⟩ := hE (edges.length - 1 - k) (by omega)
      refine seq ?_ (seq ?_ (seq ?_ (seq ?_ ?_)))
      · rw [ev_iff]; simp; omega
      · rw [ev_iff]; simpa using b
      · rw [ev_iff]; simpa using c
      · rw [ev_iff]; simpa using b
      · rw [ev_iff]; simpa using c
    · rw [ev_iff]; simp; omega
    · have := hnv hi hj
      refine seq ?_ ?_ <;> · rw [ev_iff]; simp; omega

end

section
variable {shape : List ℕ} {B : ℕ}

theorem sh_mem {i : ℕ} (hi : i < shape.length) : sh shape i ∈ shape := by
  unfold sh
  rw [List.getD_eq_getElem _ _ hi]; exact List.getElem_mem hi

theorem sh_of_mem {s : ℕ} (hs : s ∈ shape) : ∃ i < shape.length, sh shape i = s := by
  obtain ⟨i, hi, rfl⟩ := List.getElem_of_mem hs
  exact ⟨i, hi, List.getD_eq_getElem _ _ hi⟩

theorem last_mem (h : shape ≠ []) : lastSh shape ∈ shape := by
  unfold lastSh
  rw [List.getLastD_eq_getLast?, List.getLast?_eq_some_getLast h]
  exact List.getLast_mem h

theorem mul_each {a : ℕ} : each shape.length (fun i => ev ((a : Ex) * (sh shape i : Ex))) = some () ↔ ∀ s ∈ shape, a * s < 2 ^ 31 := by
  rw [each_iff]
  constructor
  · intro h s hs
    obtain ⟨i, hi, rfl⟩ := sh_of_mem hs
    have := (ev_iff _).1 (h i hi)
    simp at this; omega
  · intro h i hi
    have := h _ (sh_mem hi)
    rw [ev_iff]; simp; omega

theorem layers_ok (h : shape.length < 2 ^ 31) : each (shape.length - 2) (fun l => ev ((l : Ex) + 1)) = some () :=
  each_ok fun l hl => by rw [ev_iff]; simp; omega

theorem mlpCtor_iff : mlpCtor shape = some () ↔ shape.length < 2 ^ 31 ∧ ∀ s ∈ shape, lastSh shape * s < 2 ^ 31 := by
  unfold mlpCtor
  rw [seq_iff, narrow_iff, mul_each]

theorem mlpEvaluate_iff : mlpEvaluate shape = some () ↔ shape.length < 2 ^ 31 := by
  unfold mlpEvaluate
  rw [seq_iff, narrow_iff]
  exact ⟨fun h => h.1, fun h => ⟨h, layers_ok h⟩⟩

theorem mlpGradient_iff :
    mlpGradient shape = some () ↔ shape.length < 2 ^ 31 ∧ ∀ s ∈ shape, lastSh shape * s < 2 ^ 31 := by
  unfold mlpGradient
  rw [seq_iff, seq_iff, seq_iff, narrow_iff, mul_each]
  refine ⟨fun h => ⟨h.1, h.2.1⟩, fun h => ⟨h.1, h.2, layers_ok h.1, each_ok fun k hk => ?_⟩⟩
  have h1 := h.1
  refine seq (by rw [ev_iff]; simp; omega) (each_ok fun i hi => each_ok fun j hj => ?_)
  have a := h.2 _ (sh_mem (i := shape.length - 3 - k + 1) (by omega))
  have b := prod_lt hi hj
  rw [ev_iff]; simp; omega

theorem mlpBatch_iff : mlpBatch shape B = some () ↔ shape.length < 2 ^ 31 ∧ ∀ s ∈ shape, B * s < 2 ^ 31 := by
  unfold mlpBatch
  rw [seq_iff, seq_iff, narrow_iff, mul_each]
  refine ⟨fun h => ⟨h.1, h.2.1⟩, fun h => ⟨h.1, h.2, each_ok fun l hl => ?_⟩⟩
  have h1 := h.1
  exact seq (by rw [ev_iff]; simp; omega) ((narrow_iff _).2 (h.2 _ (sh_mem (by omega))))

theorem mlpGradientBatch_iff (hs : shape ≠ []) : mlpGradientBatch shape B = some () ↔
    shape.length < 2 ^ 31 ∧ (∀ s ∈ shape, B * s < 2 ^ 31) ∧ ∀ s ∈ shape, B * lastSh shape * s < 2 ^ 31 := by
  unfold mlpGradientBatch
  rw [seq_iff, seq_iff, seq_iff, narrow_iff]
  constructor
  · rintro ⟨h1, h2, -⟩
    refine ⟨h1, fun s hs => ?_, fun s hs => ?_⟩ <;> obtain ⟨i, hi, rfl⟩ := sh_of_mem hs
    · have := (ev_iff _).1 (seq_iff.1 (each_iff.1 h2 i hi)).1
      simp at this; omega
    · have := (ev_iff _).1 (seq_iff.1 (seq_iff.1 (each_iff.1 h2 i hi)).2).2
      simp at this; omega
  · rintro ⟨h1, h2, h3⟩
    have hl := h2 _ (last_mem hs)
    refine ⟨h1, each_ok fun i hi => ?_, each_ok fun l hl => ?_, each_ok fun k hk => ?_⟩
    · have a := h2 _ (sh_mem hi)
      have b := h3 _ (sh_mem hi)
      refine seq ?_ (seq ?_ ?_) <;> · rw [ev_iff]; simp; omega
    · exact seq (by rw [ev_iff]; simp; omega) ((narrow_iff _).2 (h2 _ (sh_mem (by omega))))
    · refine seq (each_ok fun i hi => each_ok fun j hj => each_ok fun p hp => ?_) (by rw [ev_iff]; simp; omega)
      have a := h2 _ (sh_mem (i := shape.length - 3 - k + 1) (by omega))
      have b := h3 _ (sh_mem (i := shape.length - 3 - k + 1) (by omega))
      have c := prod_lt hi hj
      have d := prod_lt hi hp
      have e := prod_lt c hp
      rw [Nat.add_mul] at e
      have g : i * lastSh shape < B * lastSh shape := Nat.mul_lt_mul_of_pos_right hi (by omega)
      refine seq ?_ ?_ <;> · rw [ev_iff]; simp; omega

theorem mlpKokkosCtor_iff : mlpKokkosCtor shape = some () ↔
    shape.length < 2 ^ 31 ∧ ∀ l, l + 1 < shape.length → sh shape (l + 1) * sh shape l ≤ 2 ^ 31 := by
  unfold mlpKokkosCtor
  rw [seq_iff, narrow_iff, each_iff]
  refine and_congr_right fun h1 => ⟨fun h l hl => last_le fun i hi j hj => ?_, fun h l hl => ?_⟩
  · have := (ev_iff _).1 (each_iff.1 (each_iff.1 (seq_iff.1 (h l (by omega))).2 i hi) j hj)
    simp at this; omega
  · have := h l (by omega)
    refine seq (by rw [ev_iff]; simp; omega) (each_ok fun i hi => each_ok fun j hj => ?_)
    have b := prod_lt hi hj
    rw [ev_iff]; simp; omega

end

theorem splineEval_iff {i : ℕ} : splineEval i = some () ↔ 4 * i + 3 < 2 ^ 31 := by
  unfold splineEval
  simp only [seq_iff, ev_iff]
  simp; omega

theorem splineCtor_iff {n : ℕ} : splineCtor n = some () ↔ 4 * (n - 1) ≤ 2 ^ 31 := by
  unfold splineCtor
  rw [seq_iff, narrow_iff, each_iff]
  simp only [seq_iff, ev_iff]
  constructor
  · rintro ⟨-, h⟩
    rcases Nat.eq_zero_or_pos (n - 1) with h0 | h0
    · omega
    · have := (h (n - 1 - 1) (by omega)).2.2.2.1
      simp at this; omega
  · intro h
    exact ⟨by omega, fun i hi => by simp; omega⟩

theorem splineSetCtor_iff {n S : ℕ} : splineSetCtor n S = some () ↔ n < 2 ^ 31 ∧ 4 * S < 2 ^ 31 ∧ 4 * S * (n - 1) < 2 ^ 31 := by
  unfold splineSetCtor
  rw [seq_iff, seq_iff, seq_iff, narrow_iff, narrow_iff]
  constructor
  · rintro ⟨h1, -, h2, -⟩
    have := (ev_iff _).1 h2
    simp at this
    exact ⟨h1, by omega, by omega⟩
  · rintro ⟨h1, h2, h3⟩
    refine ⟨h1, by omega, by rw [ev_iff]; simp; omega, each_ok fun i hi => each_ok fun j hj => ?_⟩
    have e : ∀ c < 4, (4 * i + c) * S + j < 2 ^ 31 := fun c hc => by
      have a : 4 * i + c < 4 * (n - 1) := by omega
      have b := prod_lt a hj
      have d : 4 * (n - 1) * S = 4 * S * (n - 1) := by ring
      omega
    have e0 := e 0 (by omega)
    have e1 := e 1 (by omega)
    have e2 := e 2 (by omega)
    have e3 := e 3 (by omega)
    have hS : 4 * i + 3 ≤ (4 * i + 3) * S := Nat.le_mul_of_pos_right _ (by omega)
    rw [Nat.add_zero] at e0
    refine seq ?_ (seq ?_ (seq ?_ (seq ?_ ?_))) <;> · rw [ev_iff]; simp; omega

theorem splineSetEval_ok {n S i : ℕ} (h : splineSetCtor n S = some ()) (hi : i < n - 1) (hS : 0 < S) : splineSetEval S i = some () := by
  obtain ⟨h1, h2, h3⟩ := splineSetCtor_iff.1 h
  have a := prod_lt (i := 4 * i) (n := 4 * (n - 1)) (j := 0) (by omega) hS
  have b : 4 * (n - 1) * S = 4 * S * (n - 1) := by ring
  have c : 4 * i ≤ 4 * i * S := Nat.le_mul_of_pos_right _ hS
  unfold splineSetEval
  rw [ev_iff]; simp; omega

theorem sphericartComplex_iff {lmax n : ℕ} :
    sphericartComplex lmax n = some () ↔ lmax + 1 < 2 ^ 31 ∧ n * (lmax + 1) * (lmax + 1) < 2 ^ 31 := by
  unfold sphericartComplex
  rw [seq_iff, seq_iff, seq_iff, narrow_iff]
  constructor
  · rintro ⟨-, h, -⟩
    have := (ev_iff _).1 h
    simp at this
    exact ⟨by omega, by omega⟩
  · rintro ⟨h1, h2⟩
    have hn : n ≤ n * (lmax + 1) := Nat.le_mul_of_pos_right _ (by omega)
    have hn' : n * (lmax + 1) ≤ n * (lmax + 1) * (lmax + 1) := Nat.le_mul_of_pos_right _ (by omega)
    have hev : ev ((n : Ex) * ((lmax : Ex) + 1) * ((lmax : Ex) + 1)) = some () := by rw [ev_iff]; simp; omega
    refine ⟨by omega, hev, hev, each_ok fun i hi => ?_⟩
    have e1 : (i + 1) * (lmax + 1) * (lmax + 1) ≤ n * (lmax + 1) * (lmax + 1) :=
      Nat.mul_le_mul_right _ (Nat.mul_le_mul_right _ hi)
    have e2 : (i + 1) * (lmax + 1) * (lmax + 1) = i * (lmax + 1) * (lmax + 1) + (lmax + 1) * (lmax + 1) := by ring
    have e3 : i * (lmax + 1) ≤ i * (lmax + 1) * (lmax + 1) := Nat.le_mul_of_pos_right _ (by omega)
    refine seq (by rw [ev_iff]; simp; omega) (each_ok fun l hl => seq (by rw [ev_iff]; simp; omega) (each_ok fun m hm => ?_))
    have e4 : (l + 1) * (l + 1) ≤ (lmax + 1) * (lmax + 1) := Nat.mul_le_mul (by omega) (by omega)
    have e5 : (l + 1) * (l + 1) = l * (l + 1) + (l + 1) := by ring
    rw [ev_iff]; simp; omega

end Verif.IntIndex

namespace Verif.Props
open Verif.IntIndex Verif.Poly

/-- C123, `MultivariatePolynomial`: single evaluations overflow exactly if the number of nodes is no `int`; a batch exactly if the number of
nodes or the length of the gradient is no `int`, or an index of a node value is none. -/
theorem C123_polynomial {K : Type} [CommRing K] (srt : List (List (List ℕ)) → List (List (List ℕ))) (hs : SortFn srt) (nv : ℕ)
    (coeffs : List K) (monos : List (List ℕ)) (hlen : coeffs.length = monos.length) (hnd : monos.Nodup)
    (hne : ∀ m ∈ monos, m ≠ []) (hr : ∀ m ∈ monos, ∀ v ∈ m, v < nv) :
    ∃ P, Poly.mk? srt nv coeffs monos = some P ∧
      (polyEvaluate nv P.nodes.length P.edges = some () ↔ P.nodes.length < 2 ^ 31) ∧
      (polyGradient nv P.nodes.length P.edges = some () ↔ P.nodes.length < 2 ^ 31) ∧
      ∀ B, polyBatch nv P.nodes.length P.edges B = some () ↔
        P.nodes.length < 2 ^ 31 ∧ P.nodes.length * B ≤ 2 ^ 31 ∧ nv * B < 2 ^ 31 := by
  obtain ⟨P, h1, hv, e, -⟩ := mk?_spec hs nv coeffs monos hlen hnd hne hr
  subst e
  refine ⟨P, h1, polyEvaluate_iff hv.len, polyGradient_iff hv.len, fun B => polyBatch_iff hv.len fun e he => ?_⟩
  obtain ⟨i, hi, rfl⟩ := List.getElem_of_mem he
  obtain ⟨e, y, a, b, h2, -, -, -, h3, h4, -⟩ := hv.edge i hi
  rw [List.getElem?_eq_getElem hi] at h2
  cases h2
  have := hv.len
  exact ⟨by omega, by omega⟩

/-- What the perceptron stores and uses fits: layers, values of all layers, derivatives of the last layer with respect to the others. -/
def PerceptronFits (shape : List ℕ) (B : ℕ) : Prop :=
  shape.length < 2 ^ 31 ∧ (∀ s ∈ shape, B * s < 2 ^ 31) ∧ ∀ s ∈ shape.dropLast, B * shape.getLastD 0 * s < 2 ^ 31

/-- C123, `MultilayerPerceptron`: exact limits of all functions; the derivatives of the last layer with respect to itself, never used, count. -/
theorem C123_perceptron (shape : List ℕ) (hs : 2 ≤ shape.length) (B : ℕ) :
    (mlpCtor shape = some () ↔ shape.length < 2 ^ 31 ∧ ∀ s ∈ shape, shape.getLastD 0 * s < 2 ^ 31) ∧
    (mlpEvaluate shape = some () ↔ shape.length < 2 ^ 31) ∧
    (mlpGradient shape = some () ↔ shape.length < 2 ^ 31 ∧ ∀ s ∈ shape, shape.getLastD 0 * s < 2 ^ 31) ∧
    (mlpBatch shape B = some () ↔ shape.length < 2 ^ 31 ∧ ∀ s ∈ shape, B * s < 2 ^ 31) ∧
    (mlpGradientBatch shape B = some () ↔
      PerceptronFits shape B ∧ B * shape.getLastD 0 * shape.getLastD 0 < 2 ^ 31) := by
  have hne : shape ≠ [] := by rintro rfl; simp at hs
  refine ⟨mlpCtor_iff, mlpEvaluate_iff, mlpGradient_iff, mlpBatch_iff, (mlpGradientBatch_iff hne).trans ?_⟩
  unfold PerceptronFits
  have hsplit : ∀ Q : ℕ → Prop, (∀ s ∈ shape, Q s) ↔ (∀ s ∈ shape.dropLast, Q s) ∧ Q (shape.getLastD 0) := by
    intro Q
    have e : shape = shape.dropLast ++ [shape.getLastD 0] := by
      rw [List.getLastD_eq_getLast?, List.getLast?_eq_some_getLast hne]
      exact (List.dropLast_append_getLast hne).symm
    constructor
    · exact fun h => ⟨fun s hs => h s (List.mem_of_mem_dropLast hs), h _ (last_mem hne)⟩
    · intro h s hs
      rw [e] at hs
      rcases List.mem_append.1 hs with h1 | h1
      · exact h.1 s h1
      · rw [List.mem_singleton.1 h1]; exact h.2
  rw [hsplit (fun s => B * lastSh shape * s < 2 ^ 31)]
  tauto

/-- C123, `MultilayerPerceptron` with one output, as in all uses by the evaluators: what is stored and used fits, so nothing overflows. -/
theorem C123_perceptron_partial (shape : List ℕ) (hs : 2 ≤ shape.length) (h1 : shape.getLastD 0 = 1) (B : ℕ) (hB : 0 < B)
    (h : PerceptronFits shape B) : mlpCtor shape = some () ∧ mlpEvaluate shape = some () ∧ mlpGradient shape = some () ∧
      mlpBatch shape B = some () ∧ mlpGradientBatch shape B = some () := by
  obtain ⟨i1, i2, i3, i4, i5⟩ := C123_perceptron shape hs B
  have hne : shape ≠ [] := by rintro rfl; simp at hs
  have hl := h.2.1 _ (last_mem hne)
  have hc : ∀ s ∈ shape, shape.getLastD 0 * s < 2 ^ 31 := fun s hs => by
    rw [h1, one_mul]
    exact (Nat.le_mul_of_pos_left s hB).trans_lt (h.2.1 s hs)
  refine ⟨i1.2 ⟨h.1, hc⟩, i2.2 h.1, i3.2 ⟨h.1, hc⟩, i4.2 ⟨h.1, h.2.1⟩, i5.2 ⟨h, ?_⟩⟩
  have : lastSh shape = 1 := h1
  rw [h1]; rw [this] at hl; omega

/-- C123 is violated: one input and 46341 outputs fit, the constructor overflows, as do the gradients. -/
theorem C123_perceptron_violated : PerceptronFits [1, 46341] 1 ∧ mlpCtor [1, 46341] ≠ some () ∧ mlpGradient [1, 46341] ≠ some () ∧
    mlpGradientBatch [1, 46341] 1 ≠ some () := by
  obtain ⟨i1, -, i3, -, i5⟩ := C123_perceptron [1, 46341] (by decide) 1
  refine ⟨⟨by decide, by decide, by decide⟩, fun h => ?_, fun h => ?_, fun h => ?_⟩
  · exact absurd ((i1.1 h).2 46341 (by decide)) (by decide)
  · exact absurd ((i3.1 h).2 46341 (by decide)) (by decide)
  · exact absurd (i5.1 h).2 (by decide)

/-- C123, `MultilayerPerceptronKokkos`: the constructor overflows exactly if the weights of a layer are more than `2^31`. -/
theorem C123_perceptron_kokkos (shape : List ℕ) (_hs : 2 ≤ shape.length) : mlpKokkosCtor shape = some () ↔
    shape.length < 2 ^ 31 ∧ ∀ l, l + 1 < shape.length → shape.getD (l + 1) 0 * shape.getD l 0 ≤ 2 ^ 31 := mlpKokkosCtor_iff

/-- C123, `CubicSpline`: with at most `2^31` coefficients neither the constructor nor an evaluation within the table overflows; with more the
constructor does. -/
theorem C123_spline (n : ℕ) (_hn : 1 ≤ n) :
    (splineCtor n = some () ↔ 4 * (n - 1) ≤ 2 ^ 31) ∧ (splineCtor n = some () → ∀ i < n - 1, splineEval i = some ()) :=
  ⟨splineCtor_iff, fun h i hi => splineEval_iff.2 (by have := splineCtor_iff.1 h; omega)⟩

/-- C123, `CubicSplineSet`: the constructor overflows exactly if the number of coefficients, of nodes or of coefficients per node is no `int`;
then no evaluation within the table overflows. -/
theorem C123_spline_set (n S : ℕ) (_hn : 1 ≤ n) (hS : 1 ≤ S) :
    (splineSetCtor n S = some () ↔ n < 2 ^ 31 ∧ 4 * S < 2 ^ 31 ∧ 4 * S * (n - 1) < 2 ^ 31) ∧
    (splineSetCtor n S = some () → ∀ i < n - 1, splineSetEval S i = some () ∧ evaluateDerivs S i = some ()) := by
  refine ⟨splineSetCtor_iff, fun h i hi => ⟨splineSetEval_ok h hi hS, ?_⟩⟩
  obtain ⟨h1, h2, h3⟩ := splineSetCtor_iff.1 h
  have a := prod_lt (i := 4 * i + 1) (n := 4 * (n - 1)) (j := 0) (by omega) hS
  have b : 4 * (n - 1) * S = 4 * S * (n - 1) := by ring
  have c : 4 * i + 1 ≤ (4 * i + 1) * S := Nat.le_mul_of_pos_right _ hS
  exact seq (splineSetEval_ok h hi hS) (by rw [ev_iff]; simp; omega)

/-- C123, `sphericart_complex`: overflow exactly if the number of harmonics of all samples is no `int`, or `l_max+1` is none. -/
theorem C123_sphericart (lmax n : ℕ) :
    sphericartComplex lmax n = some () ↔ lmax + 1 < 2 ^ 31 ∧ n * (lmax + 1) * (lmax + 1) < 2 ^ 31 := sphericartComplex_iff

/-- Non-trivial instance: a network as in the tests, with a batch of a million. -/
example : mlpGradientBatch [8, 16, 1] 1000000 = some () :=
  (C123_perceptron_partial [8, 16, 1] (by decide) rfl 1000000 (by decide) ⟨by decide, by decide, by decide⟩).2.2.2.2

/-- Non-trivial instance: two variables, one product, a batch of a million. -/
example : polyBatch 2 3 [(0, 1)] 1000000 = some () := (polyBatch_iff (by decide) (by decide)).2 ⟨by decide, by decide, by decide⟩

/-- Non-trivial instance: 200 splines with 200 nodes. -/
example : splineSetCtor 200 200 = some () := ((C123_spline_set 200 200 (by decide) (by decide)).1).2 ⟨by decide, by decide, by decide⟩

/-- Non-trivial instance: the limit of `CubicSpline`. -/
example : splineCtor 536870913 = some () ∧ splineCtor 536870914 ≠ some () :=
  ⟨(C123_spline _ (by decide)).1.2 (by decide), fun h => absurd ((C123_spline _ (by decide)).1.1 h) (by decide)⟩

/-- Non-trivial instance: a million samples up to `l = 3`. -/
example : sphericartComplex 3 1000000 = some () := (C123_sphericart _ _).2 ⟨by decide, by decide⟩

/-- Non-trivial instance of the hypotheses of the polynomials: see `C19_value`. -/
example : mlpKokkosCtor [8, 16, 1] = some () := (C123_perceptron_kokkos [8, 16, 1] (by decide)).2 ⟨by decide, fun l hl => by
  have : l = 0 ∨ l = 1 := by simp at hl; omega
  rcases this with rfl | rfl <;> decide⟩

end Verif.Props
